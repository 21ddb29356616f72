import Verif.Ainur.LemmasGrammar
import Verif.Ainur.PropsState

/-!
# Properties of the grammar of Ainur files

C78.
-/

namespace Verif.Ainur

open Verif.Str

/-! ## Reading what was written -/

/-- The rest after a statement: a semicolon follows, perhaps after a gap. -/
theorem statement_run {st : Stmt} {t : Str} (hl : Layout st t) (hc : st.Clear) (s : Str) :
    ∃ r, statement (t ++ ';' :: s) = some (st, r) ∧ lit ';' r = some s := by
  have hsemi : lit ';' (';' :: s) = some s := lit_run ';' [] s .nil (by decide) (by decide)
  cases hl with
  | assign g0 n g1 g2 v hg0 hn hg1 hg2 hv =>
    obtain ⟨hsp, hb⟩ := hc
    refine ⟨';' :: s, ?_, hsemi⟩
    have e : g0 ++ (n ++ (g1 ++ '=' :: (g2 ++ v))) ++ ';' :: s = g0 ++ (n ++ (g1 ++ '=' :: (g2 ++ (v ++ ';' :: s)))) := by
      simp
    rw [e]
    have hend : Stops nameChar (g1 ++ '=' :: (g2 ++ (v ++ ';' :: s))) :=
      gap_stops _ nameChar_plain hg1 (by intro c hc; simp at hc; subst hc; decide)
    -- no type can be read, or no name after it
    have hno : (do
        let (_, s) ← typeQualifier (g0 ++ (n ++ (g1 ++ '=' :: (g2 ++ (v ++ ';' :: s)))))
        keywords s) = none := by
      obtain ⟨c0, n', hn'⟩ : ∃ c n', n = c :: n' := by
        cases h : n with
        | nil => exact absurd h (name_ne_nil hn)
        | cons c n' => exact ⟨c, n', rfl⟩
      obtain ⟨u, l, r, e1, hu, h0, hl, hr⟩ := hn
      -- all characters of a name are name characters
      have hall : ∀ c ∈ n, nameChar c = true := by
        intro c hc
        rw [e1, List.mem_append, List.mem_append] at hc
        rw [nameChar_iff]
        rcases hc with (hc | hc) | hc
        · exact .inr (.inr (.inr (hu c hc)))
        · exact .inl (hl c hc)
        · exact hr c hc
      -- so the characters of types among them are letters
      have hty : ∀ c ∈ n, typeChar c = true → Letter c := by
        intro c hc ht
        rcases (typeChar_iff c).1 ht with h | rfl | rfl
        · exact h
        · exact absurd (hall _ hc) (by decide)
        · exact absurd (hall _ hc) (by decide)
      have hskip : skip (n ++ (g1 ++ '=' :: (g2 ++ (v ++ ';' :: s)))) = n ++ (g1 ++ '=' :: (g2 ++ (v ++ ';' :: s))) := by
        have := nameChar_plain c0 (hall c0 (by rw [hn']; simp))
        rw [hn']
        exact skip_stop c0 _ this.1 this.2
      -- the run of letters
      obtain ⟨a, b, hab, ha, hst⟩ : ∃ a b, n = a ++ b ∧ (∀ c ∈ a, typeChar c = true) ∧ Stops typeChar b := by
        refine ⟨n.takeWhile typeChar, n.dropWhile typeChar, (List.takeWhile_append_dropWhile ..).symm,
          fun c hc => mem_take hc, ?_⟩
        intro c hc
        have := List.head?_dropWhile_not typeChar n
        rw [hc] at this
        simpa using this
      have hst2 : Stops typeChar (b ++ (g1 ++ '=' :: (g2 ++ (v ++ ';' :: s)))) := by
        cases b with
        | nil =>
          rw [List.nil_append]
          exact gap_stops _ typeChar_plain hg1 (by intro c hc; simp at hc; subst hc; decide)
        | cons x b => intro c hc; exact hst c (by simpa using hc)
      unfold typeQualifier
      rw [skip_gap hg0, hskip, hab, List.append_assoc]
      by_cases ha0 : a = []
      · rw [ha0, List.nil_append, plus_none _ _ hst2]; rfl
      · rw [plus_run _ _ _ ha0 ha hst2]
        show keywords _ = none
        -- the underscores
        obtain ⟨w, b', hb', hw, hst3⟩ : ∃ w b', b = w ++ b' ∧ (∀ c ∈ w, c = '_') ∧ b'.head? ≠ some '_' := by
          refine ⟨b.takeWhile (· = '_'), b.dropWhile (· = '_'), (List.takeWhile_append_dropWhile ..).symm,
            fun c hc => by simpa using mem_take hc, ?_⟩
          intro h
          have := List.head?_dropWhile_not (· = '_') b
          rw [h] at this
          simp at this
        -- what follows is not a letter
        have hfin : Stops aToZ (b' ++ (g1 ++ '=' :: (g2 ++ (v ++ ';' :: s)))) := by
          cases hbc : b' with
          | nil =>
            rw [List.nil_append]
            refine gap_stops _ (fun c hc => ?_) hg1 (by intro c hc; simp at hc; subst hc; decide)
            exact ⟨(letter_plain ((aToZ_iff c).1 hc)).1, (letter_plain ((aToZ_iff c).1 hc)).2.1⟩
          | cons x b'' =>
            intro c hc
            simp at hc; subst hc
            by_contra hx
            have hx : Letter x := (aToZ_iff x).1 (by simpa using hx)
            by_cases hw0 : w = []
            · have := hst x (by rw [hb', hw0, hbc]; rfl)
              rw [(typeChar_iff x).2 (.inl hx)] at this; cases this
            · refine hsp a b ⟨w, x, b'', hab, by rw [hb', hbc], ha0, ?_, hw0, hw, hx⟩
              intro y hy
              exact hty y (by rw [hab]; simp [hy]) (ha y hy)
        have hhead : (b' ++ (g1 ++ '=' :: (g2 ++ (v ++ ';' :: s)))).head? ≠ some '_' := by
          cases hbc : b' with
          | nil =>
            have := gap_stops nameChar nameChar_plain hg1 (s := '=' :: (g2 ++ (v ++ ';' :: s)))
              (by intro c hc; simp at hc; subst hc; decide)
            intro h
            exact absurd (this '_' (by simpa using h)) (by decide)
          | cons x b'' => rw [hbc] at hst3; simpa using hst3
        have hwnil : ∀ x : Str, Stops aToZ x → x.head? ≠ some '_' → ∀ w : Str, (∀ c ∈ w, c = '_') →
            skip (w ++ x) = w ++ x → keywords (w ++ x) = none := by
          intro x hx1 hx2 w hw hsk
          unfold keywords
          simp only [hsk]
          rw [(takeBars w x hw hx2).2, plus_none _ _ hx1]
        by_cases hbb : b = []
        · -- after the gap there is the equal sign
          rw [hbb, List.nil_append]
          unfold keywords
          rw [skip_gap hg1, skip_stop '=' _ (by decide) (by decide)]
          simp only []
          rw [show ('=' :: (g2 ++ (v ++ ';' :: s))).dropWhile (fun c => decide (c = '_')) = '=' :: (g2 ++ (v ++ ';' :: s)) by
            simp [List.dropWhile]]
          rw [plus_none]
          intro c hc; simp at hc; subst hc; decide
        · rw [hb', List.append_assoc]
          apply hwnil _ hfin hhead w hw
          obtain ⟨y, b3, hy⟩ : ∃ y b3, b = y :: b3 := by
            cases h : b with
            | nil => exact absurd h hbb
            | cons y b3 => exact ⟨y, b3, rfl⟩
          have h1 := nameChar_plain y (hall y (by rw [hab, hy]; simp))
          rw [← List.append_assoc, ← hb', hy]
          exact skip_stop y _ h1.1 h1.2
    have h3 : statement3 (g0 ++ (n ++ (g1 ++ '=' :: (g2 ++ (v ++ ';' :: s))))) = none := by
      unfold statement3
      simp only [bind, Option.bind] at hno ⊢
      split
      · rfl
      · rename_i x hx
        rw [hx] at hno
        simp only [] at hno
        simp only [hno]
    have h2 : statement2 (g0 ++ (n ++ (g1 ++ '=' :: (g2 ++ (v ++ ';' :: s))))) = none := by
      unfold statement2
      simp only [bind, Option.bind] at hno ⊢
      split
      · rfl
      · rename_i x hx
        rw [hx] at hno
        simp only [] at hno
        simp only [hno]
    have h1 : statement1 (g0 ++ (n ++ (g1 ++ '=' :: (g2 ++ (v ++ ';' :: s))))) = some (.assign n v, ';' :: s) := by
      unfold statement1
      rw [keywords_run g0 hg0 hn hend]
      simp only [bind, Option.bind]
      rw [lit_run '=' g1 _ hg1 (by decide) (by decide)]
      simp only []
      rw [value_run g2 s hg2 hv hb]
      rfl
    unfold statement
    rw [h3, h2, h1]
    rfl
  | declare g0 d g1 n g2 hg0 hd hg1 hn h hg2 =>
    refine ⟨g2 ++ ';' :: s, ?_, lit_run ';' g2 s hg2 (by decide) (by decide)⟩
    have e : g0 ++ (d ++ (g1 ++ (n ++ g2))) ++ ';' :: s = g0 ++ (d ++ (g1 ++ (n ++ (g2 ++ ';' :: s)))) := by simp
    rw [e]
    have hend : Stops nameChar (g2 ++ ';' :: s) :=
      gap_stops _ nameChar_plain hg2 (by intro c hc; simp at hc; subst hc; decide)
    have h3 : statement3 (g0 ++ (d ++ (g1 ++ (n ++ (g2 ++ ';' :: s))))) = none := by
      unfold statement3
      rw [typeQualifier_run g0 hg0 hd (type_stops hg1 hn h)]
      simp only [bind, Option.bind]
      rw [keywords_run g1 hg1 hn hend]
      simp only []
      rw [lit_other '=' ';' g2 s hg2 (by decide) (by decide) (by decide)]
    have h2 : statement2 (g0 ++ (d ++ (g1 ++ (n ++ (g2 ++ ';' :: s))))) = some (.declare d n, g2 ++ ';' :: s) := by
      unfold statement2
      rw [typeQualifier_run g0 hg0 hd (type_stops hg1 hn h)]
      simp only [bind, Option.bind]
      rw [keywords_run g1 hg1 hn hend]
      rfl
    unfold statement
    rw [h3, h2]
    rfl
  | define g0 d g1 n g2 g3 v hg0 hd hg1 hn h hg2 hg3 hv =>
    refine ⟨';' :: s, ?_, hsemi⟩
    have e : g0 ++ (d ++ (g1 ++ (n ++ (g2 ++ '=' :: (g3 ++ v))))) ++ ';' :: s =
        g0 ++ (d ++ (g1 ++ (n ++ (g2 ++ '=' :: (g3 ++ (v ++ ';' :: s)))))) := by simp
    rw [e]
    have hend : Stops nameChar (g2 ++ '=' :: (g3 ++ (v ++ ';' :: s))) :=
      gap_stops _ nameChar_plain hg2 (by intro c hc; simp at hc; subst hc; decide)
    have h3 : statement3 (g0 ++ (d ++ (g1 ++ (n ++ (g2 ++ '=' :: (g3 ++ (v ++ ';' :: s))))))) =
        some (.define d n v, ';' :: s) := by
      unfold statement3
      rw [typeQualifier_run g0 hg0 hd (type_stops hg1 hn h)]
      simp only [bind, Option.bind]
      rw [keywords_run g1 hg1 hn hend]
      simp only []
      rw [lit_run '=' g2 _ hg2 (by decide) (by decide)]
      simp only []
      rw [value_run g3 s hg3 hv hc]
      rfl
    unfold statement
    rw [h3]
    rfl

theorem statement_gap (g : Str) (hg : Gap g) : statement g = none := by
  have h0 : skip g = [] := by
    have := skip_gap hg []
    rw [List.append_nil] at this
    rw [this, skip_nil]
  have h1 : typeQualifier g = none := by unfold typeQualifier; rw [h0]; rfl
  have h2 : keywords g = none := by unfold keywords; rw [h0]; rfl
  unfold statement statement3 statement2 statement1
  rw [h1, h2]
  rfl

theorem more_run (l : List (Stmt × Str)) (hl : ∀ e ∈ l, Layout e.1 e.2 ∧ e.1.Clear) (tail : Str) (ht : Gap tail) :
    ∀ (n : Nat) (r : Str), l.length ≤ n → lit ';' r = some (fileText l tail) → ∃ u, moreStatements (n + 1) r =
      (l.map (·.1), u) ∧ lit ';' u = some tail := by
  induction l with
  | nil =>
    intro n r _ hr
    refine ⟨r, ?_, by simpa [fileText] using hr⟩
    have : fileText [] tail = tail := by simp [fileText]
    rw [moreStatements, hr, this]
    simp only []
    rw [statement_gap tail ht]
    rfl
  | cons e l ih =>
    intro n r hn hr
    obtain ⟨h1, h2⟩ := hl e (by simp)
    have ef : fileText (e :: l) tail = e.2 ++ ';' :: fileText l tail := by simp [fileText]
    obtain ⟨r', hr1, hr2⟩ := statement_run h1 h2 (fileText l tail)
    obtain ⟨n, rfl⟩ : ∃ m, n = m + 1 := ⟨n - 1, by simp at hn; omega⟩
    obtain ⟨u, hu1, hu2⟩ := ih (fun e he => hl e (by simp [he])) n r' (by simp at hn; omega) hr2
    refine ⟨u, ?_, hu2⟩
    rw [moreStatements, hr, ef]
    simp only []
    rw [hr1]
    simp only []
    rw [hu1]
    rfl

theorem layout_len {st : Stmt} {t : Str} (h : Layout st t) : 0 < t.length := by
  cases h with
  | assign g0 n g1 g2 v hg0 hn hg1 hg2 hv => simp; omega
  | declare g0 d g1 n g2 hg0 hd hg1 hn h hg2 =>
    have := List.length_pos_of_ne_nil hd.1
    simp; omega
  | define g0 d g1 n g2 g3 v hg0 hd hg1 hn h hg2 hg3 hv => simp; omega

theorem fileText_len (l : List (Stmt × Str)) (tail : Str) : l.length ≤ (fileText l tail).length := by
  induction l with
  | nil => simp
  | cons e l ih =>
    have : fileText (e :: l) tail = e.2 ++ ';' :: fileText l tail := by simp [fileText]
    rw [this]
    simp; omega

/-- The statements of a file are read, in their order, and what is left is the last semicolon and what follows. -/
theorem phrase_run (l : List (Stmt × Str)) (h0 : l ≠ []) (hl : ∀ e ∈ l, Layout e.1 e.2 ∧ e.1.Clear) (tail : Str)
    (ht : Gap tail) : phraseParse (fileText l tail) = (l.map (·.1), ';' :: tail) := by
  cases l with
  | nil => exact absurd rfl h0
  | cons e l =>
    obtain ⟨h1, h2⟩ := hl e (by simp)
    have ef : fileText (e :: l) tail = e.2 ++ ';' :: fileText l tail := by simp [fileText]
    obtain ⟨r, hr1, hr2⟩ := statement_run h1 h2 (fileText l tail)
    have hlen : l.length + 1 ≤ (e.2 ++ ';' :: fileText l tail).length := by
      have := fileText_len l tail
      simp; omega
    obtain ⟨n, hn⟩ : ∃ n, (e.2 ++ ';' :: fileText l tail).length = n + 1 := ⟨(e.2 ++ ';' :: fileText l tail).length - 1, by omega⟩
    obtain ⟨u, hu1, hu2⟩ := more_run l (fun e he => hl e (by simp [he])) tail ht n r (by omega) hr2
    have hsk : skip u = ';' :: tail := by
      unfold lit at hu2
      split at hu2
      · rename_i d t hd
        split at hu2
        · rename_i hdc
          cases hu2; rw [hd, hdc]
        · cases hu2
      · cases hu2
    unfold phraseParse
    rw [ef, hr1]
    simp only []
    rw [hn, hu1]
    simp only [hsk]
    rfl

theorem checkRest_gap (c : Char) (g : Str) (hg : Gap g) : checkRest (c :: g) = .ok () := by
  have h0 : skip g = [] := by
    have := skip_gap hg []
    rw [List.append_nil] at this
    rw [this, skip_nil]
  unfold checkRest
  split
  · rename_i h; cases h
  · rename_i x r h
    cases h
    rw [h0]
    simp

/-- **C78** A file of statements, each with its semicolon, with white space and comments around all parts, makes exactly
the declarations and assignments that it says, in their order. -/
theorem file_spec (fs : Files) (l : List (Stmt × Str)) (tail : Str) (h0 : l ≠ [])
    (hl : ∀ e ∈ l, Layout e.1 e.2 ∧ e.1.Clear) (ht : Gap tail) (hc : ∀ c ∈ fileText l tail, Allowed c) :
    ainur fs (fileText l tail) = (l.map (·.1)).foldlM Stmt.act State.init >>= initMacros fs := by
  unfold ainur
  rw [(lexical_iff _).1 hc, phrase_run l h0 hl tail ht]
  simp only [checkRest_gap ';' tail ht, bind, Except.bind]

/-- **C78** A file with a character that is not allowed is refused. -/
theorem file_refused (fs : Files) (s : Str) (hc : ∃ c ∈ s, ¬ Allowed c) : ainur fs s = throwOut := by
  unfold ainur
  rw [(lexical_iff s).2 (by push Not; exact hc)]
  rfl

/-! ## Values -/

theorem act_run (fs : Files) (s : State) (st : Stmt) : st.op.run fs s =
    match st.act s with
    | .ok s => .ok (.done, s)
    | .error .thrown => .ok (.refused, s)
    | .error .ub => ubOut := by
  cases st <;> rfl

theorem acts_run (fs : Files) (l : List Stmt) : ∀ (h : List Op) (s : State), After h s →
    (∀ o ∈ (l.map Stmt.op).reverse ++ h, o.Plain) →
    ((∀ a ∈ answers h (l.map Stmt.op), a = .done) → ∃ s', l.foldlM Stmt.act s = .ok s' ∧ After ((l.map Stmt.op).reverse ++ h) s') ∧
    ((∃ a ∈ answers h (l.map Stmt.op), a ≠ .done) → l.foldlM Stmt.act s = throwOut) := by
  induction l with
  | nil =>
    intro h s ha _
    exact ⟨fun _ => ⟨s, rfl, by simpa using ha⟩, by simp [answers]⟩
  | cons st l ih =>
    intro h s ha hp
    obtain ⟨s', hr, ha'⟩ := op_step fs h s ha st.op (fun o ho => hp o (by
      simp only [List.mem_cons] at ho
      rcases ho with rfl | ho
      · simp
      · simp [ho]))
    rw [act_run] at hr
    have ih' := ih (st.op :: h) s' ha' (by
      intro o ho
      apply hp o
      simp only [List.map_cons, List.reverse_cons, List.append_assoc, List.singleton_append]
      exact ho)
    simp only [List.map_cons, answers, List.mem_cons, List.reverse_cons, List.append_assoc, List.singleton_append,
      List.foldlM_cons]
    cases hact : st.act s with
    | error e =>
      rw [hact] at hr
      cases e with
      | thrown =>
        simp only [] at hr
        have hans : answer h st.op = .refused := by
          simp only [Except.ok.injEq, Prod.mk.injEq] at hr; exact hr.1.symm
        refine ⟨fun hd => ?_, fun _ => rfl⟩
        have := hd _ (.inl rfl)
        rw [hans] at this; cases this
      | ub => cases hr
    | ok s1 =>
      rw [hact] at hr
      simp only [] at hr
      have hans : answer h st.op = .done ∧ s1 = s' := by
        simp only [Except.ok.injEq, Prod.mk.injEq] at hr; exact ⟨hr.1.symm, hr.2⟩
      rw [hans.2]
      refine ⟨fun hd => ih'.1 fun a ha => hd a (.inr ha), ?_⟩
      rintro ⟨a, ha | ha, hne⟩
      · exact absurd (ha.trans hans.1) hne
      · exact ih'.2 ⟨a, ha, hne⟩

/-- Values without macros. -/
def Op.NoMacro : Op → Prop
  | .declare _ _ v => '\\' ∉ v
  | .assign _ v => '\\' ∉ v
  | .read _ => True

theorem valueOf_noMacro {h : List Op} (hp : ∀ op ∈ h, op.NoMacro) {k v : Str} (hv : valueOf h k = some v) : '\\' ∉ v := by
  induction h with
  | nil => simp [valueOf] at hv
  | cons op h ih =>
    have hr := ih (fun o ho => hp o (by simp [ho]))
    have h0 := hp op (by simp)
    cases op with
    | declare d k' w =>
      simp only [valueOf] at hv
      split at hv
      · cases hv; exact h0
      · exact hr hv
    | assign k' w =>
      simp only [valueOf] at hv
      split at hv
      · cases hv; exact h0
      · exact hr hv
    | read k' => exact hr hv

theorem expandChars_plain (s : State) (v : Str) (hv : '\\' ∉ v) (e : Exp) (he : e.inside = false) :
    v.foldlM (expandChar s) e = .ok { e with ret := e.ret ++ v } := by
  induction v generalizing e with
  | nil => simp [pure, Except.pure]
  | cons c v ih =>
    have h1 : c ≠ '\\' := by rintro rfl; exact hv (by simp)
    have h2 : expandChar s e c = .ok { e with ret := e.ret ++ [c] } := by
      unfold expandChar
      rw [if_neg h1, if_pos he]
    rw [List.foldlM_cons, h2]
    show v.foldlM (expandChar s) { e with ret := e.ret ++ [c] } = _
    have := ih (fun h => hv (by simp [h])) { e with ret := e.ret ++ [c] } he
    rw [List.append_assoc] at this
    exact this

/-- Without macros, the expansion of macros does nothing. -/
theorem expand_noMacro (fs : Files) (s : State) (hlen : s.vars.length = s.used.length)
    (hv : ∀ a ∈ s.vars, '\\' ∉ a.value) : expandMacrosRecursively fs s = .ok s := by
  have hone : ∀ i < s.vars.length, expandVar fs i (s, false) = .ok (s, false) := by
    intro i hi
    have h1 : s.vars[i]? = some s.vars[i] := List.getElem?_eq_getElem hi
    have h2 : s.used[i]? = some s.used[i] := List.getElem?_eq_getElem (by omega)
    unfold expandVar
    simp only [h1, h2]
    split
    · rfl
    · unfold expandOneValue
      rw [expandChars_plain s _ (hv _ (List.getElem_mem hi)) ⟨[], [], false, false⟩ rfl]
      rfl
  have hall : ∀ l : List Nat, (∀ i ∈ l, i < s.vars.length) →
      l.foldlM (fun r i => expandVar fs i r) (s, false) = .ok (s, false) := by
    intro l
    induction l with
    | nil => intro _; rfl
    | cons i l ih =>
      intro hl
      rw [List.foldlM_cons, hone i (hl i (by simp))]
      exact ih fun j hj => hl j (by simp [hj])
  unfold expandMacrosRecursively expandLoop expandMacros
  rw [hall _ (by simp)]
  rfl

/-- The calls of a file: its statements, and the declaration of the function that reads from files. -/
def fileOps (l : List (Stmt × Str)) : List Op :=
  l.map (fun e => e.1.op) ++ [.declare "function".toList fromFile ('!' :: fromFile)]

/-- The state after a file whose values have no macros and no functions. -/
theorem file_after (fs : Files) (l : List (Stmt × Str)) (tail : Str) (h0 : l ≠ [])
    (hl : ∀ e ∈ l, Layout e.1 e.2 ∧ e.1.Clear) (ht : Gap tail) (hc : ∀ c ∈ fileText l tail, Allowed c)
    (hp : ∀ e ∈ l, e.1.op.Plain ∧ e.1.op.NoMacro) :
    ((∀ a ∈ answers [] (fileOps l), a = .done) → ∃ s, ainur fs (fileText l tail) = .ok s ∧ After (fileOps l).reverse s ∧
      ∀ o ∈ (fileOps l).reverse, o.Plain) ∧
    ((∃ a ∈ answers [] (fileOps l), a ≠ .done) → ainur fs (fileText l tail) = throwOut) := by
  rw [file_spec fs l tail h0 hl ht hc]
  have hops : fileOps l = (l.map (fun e => e.1) ++ [Stmt.define "function".toList fromFile ('!' :: fromFile)]).map Stmt.op := by
    simp [fileOps, Stmt.op]
  have hplain : ∀ o ∈ fileOps l, o.Plain ∧ o.NoMacro := by
    intro o ho
    simp only [fileOps, List.mem_append, List.mem_map, List.mem_singleton] at ho
    rcases ho with ⟨e, he, rfl⟩ | rfl
    · exact hp e he
    · exact ⟨by simp [Op.Plain], by simp only [Op.NoMacro]; decide⟩
  have hrun := acts_run fs (l.map (fun e => e.1) ++ [Stmt.define "function".toList fromFile ('!' :: fromFile)]) [] .init after_init (by
    rw [← hops]
    intro o ho
    exact (hplain o (by simpa using ho)).1)
  rw [← hops] at hrun
  have hfold : (l.map (·.1)).foldlM Stmt.act State.init >>= initMacros fs =
      (l.map (fun e => e.1) ++ [Stmt.define "function".toList fromFile ('!' :: fromFile)]).foldlM Stmt.act State.init >>=
        expandMacrosRecursively fs := by
    rw [List.foldlM_append, bind_assoc]
    congr 1
    funext s
    unfold initMacros
    simp only [List.foldlM_cons, List.foldlM_nil, Stmt.act, bind_pure]
  rw [hfold]
  constructor
  · intro hd
    obtain ⟨s, h1, h2⟩ := hrun.1 hd
    have hexp : expandMacrosRecursively fs s = .ok s := by
      refine expand_noMacro fs s h2.len ?_
      intro a ha
      obtain ⟨i, hi, rfl⟩ := List.mem_iff_getElem.1 ha
      obtain ⟨_, _, _, hv, _⟩ := h2.at_ i _ (List.getElem?_eq_getElem hi)
      refine valueOf_noMacro ?_ hv
      intro o ho
      exact (hplain o (by simpa using ho)).2
    refine ⟨s, by rw [h1]; exact hexp, by simpa using h2, fun o ho => (hplain o (by simpa using ho)).1⟩
  · intro hd
    rw [hrun.2 hd]
    rfl

/-- **C78** What is read from a file whose values have no macros and no functions: if no statement is refused, the reads
that follow are answered as after the declarations and assignments of the file; otherwise the file is refused. -/
theorem file_values (fs : Files) (l : List (Stmt × Str)) (tail : Str) (h0 : l ≠ [])
    (hl : ∀ e ∈ l, Layout e.1 e.2 ∧ e.1.Clear) (ht : Gap tail) (hc : ∀ c ∈ fileText l tail, Allowed c)
    (hp : ∀ e ∈ l, e.1.op.Plain ∧ e.1.op.NoMacro) :
    ((∀ a ∈ answers [] (fileOps l), a = .done) → ∃ s, ainur fs (fileText l tail) = .ok s ∧
      ∀ ops : List Op, (∀ o ∈ ops, o.Plain) →
        ∃ s', runOps fs s ops = .ok (answers (fileOps l).reverse ops, s') ∧
          unused s' = unusedOf (ops.reverse ++ (fileOps l).reverse)) ∧
    ((∃ a ∈ answers [] (fileOps l), a ≠ .done) → ainur fs (fileText l tail) = throwOut) := by
  obtain ⟨h1, h2⟩ := file_after fs l tail h0 hl ht hc hp
  refine ⟨?_, h2⟩
  intro hd
  obtain ⟨s, h3, h4, h5⟩ := h1 hd
  refine ⟨s, h3, ?_⟩
  intro ops hop
  obtain ⟨s', h6, h7⟩ := ops_ok fs ops _ s h4 (by
    intro o ho
    simp only [List.mem_append] at ho
    rcases ho with ho | ho
    · exact hop o (by simpa using ho)
    · exact h5 o ho)
  exact ⟨s', h6, unused_ok _ _ h7⟩

/-! ## Nothing else is read -/

theorem keywords_inv {s n r : Str} (h : keywords s = some (n, r)) :
    ∃ g, Gap g ∧ s = g ++ (n ++ r) ∧ IsName n := by
  obtain ⟨g, hg, e⟩ := skip_split s
  unfold keywords at h
  simp only [] at h
  split at h
  · cases h
  · rename_i l t hpl
    obtain ⟨e1, h0, h1, _⟩ := plus_inv hpl
    cases h
    have e2 := List.takeWhile_append_dropWhile (p := fun c => decide (c = '_')) (l := skip s)
    have e3 := List.takeWhile_append_dropWhile (p := nameChar) (l := t)
    refine ⟨g, hg, ?_, _, l, _, rfl, ?_, h0, fun c hc => (aToZ_iff c).1 (h1 c hc), ?_⟩
    · conv_lhs => rw [e, ← e2, e1, ← e3]
      simp
    · intro c hc; simpa using mem_take hc
    · intro c hc; exact (nameChar_iff c).1 (mem_take hc)

theorem lit_inv {c : Char} {s t : Str} (h : lit c s = some t) : ∃ g, Gap g ∧ s = g ++ c :: t := by
  obtain ⟨g, hg, e⟩ := skip_split s
  unfold lit at h
  split at h
  · rename_i d u hd
    split at h
    · rename_i hdc
      cases h
      exact ⟨g, hg, by rw [e, hd, hdc]⟩
    · cases h
  · cases h

/-- The text ends, or a semicolon follows. -/
def AtSemi (r : Str) : Prop := ∀ c, r.head? = some c → c = ';'

theorem value_inv {s v r : Str} (h : valueRule s = some (v, r)) :
    ∃ g, Gap g ∧ s = g ++ (v ++ r) ∧ IsValue v ∧ AtSemi r := by
  obtain ⟨g, hg, e⟩ := skip_split s
  unfold valueRule at h
  obtain ⟨e1, h0, h1, h2⟩ := plus_inv h
  refine ⟨g, hg, by rw [← e1, ← e], ⟨h0, fun hm => ?_⟩, ?_⟩
  · have := h1 ';' hm; revert this; decide
  · intro c hc
    simpa using h2 c hc

theorem type_inv {s d r : Str} (h : typeQualifier s = some (d, r)) :
    ∃ g, Gap g ∧ s = g ++ (d ++ r) ∧ IsType d ∧ Stops typeChar r := by
  obtain ⟨g, hg, e⟩ := skip_split s
  unfold typeQualifier at h
  obtain ⟨e1, h0, h1, h2⟩ := plus_inv h
  exact ⟨g, hg, by rw [← e1, ← e], ⟨h0, fun c hc => (typeChar_iff c).1 (h1 c hc)⟩, h2⟩

/-- After a type comes a gap or an underscore. -/
theorem gap_or_bar {g n r : Str} (hn : IsName n) (hs : Stops typeChar (g ++ (n ++ r))) : g ≠ [] ∨ n.head? = some '_' := by
  by_cases hg : g = []
  · right
    subst hg
    obtain ⟨u, l, w, rfl, hu, h0, hl, _⟩ := hn
    cases u with
    | cons x u => simp [hu x (by simp)]
    | nil =>
      cases l with
      | nil => exact absurd rfl h0
      | cons c l =>
        have := hs c (by simp)
        rw [(typeChar_iff c).2 (.inl (hl c (by simp)))] at this
        cases this
  · exact .inl hg

theorem statement_inv {s r : Str} {st : Stmt} (h : statement s = some (st, r)) :
    ∃ t, s = t ++ r ∧ Layout st t ∧ (AtSemi r ∨ ∃ d n, st = .declare d n) := by
  unfold statement at h
  cases h3 : statement3 s with
  | some x =>
    rw [h3] at h
    simp at h; subst h
    unfold statement3 at h3
    simp only [bind, Option.bind_eq_some_iff] at h3
    obtain ⟨⟨d, s1⟩, hd, ⟨k, s2⟩, hk, s3, hli, ⟨v, s4⟩, hv, he⟩ := h3
    simp only [pure, Option.some.injEq, Prod.mk.injEq] at he
    obtain ⟨rfl, rfl⟩ := he
    obtain ⟨g0, hg0, e0, htd, hst⟩ := type_inv hd
    obtain ⟨g1, hg1, e1, hn⟩ := keywords_inv hk
    obtain ⟨g2, hg2, e2⟩ := lit_inv hli
    obtain ⟨g3, hg3, e3, hval, hsemi⟩ := value_inv hv
    simp only [] at e0 e1 e2 e3 hst
    refine ⟨_, ?_, .define g0 d g1 k g2 g3 v hg0 htd hg1 hn (gap_or_bar hn (e1 ▸ hst)) hg2 hg3 hval, .inl hsemi⟩
    rw [e0, e1, e2, e3]
    simp
  | none =>
    rw [h3] at h
    cases h2 : statement2 s with
    | some x =>
      rw [h2] at h
      simp at h; subst h
      unfold statement2 at h2
      simp only [bind, Option.bind_eq_some_iff] at h2
      obtain ⟨⟨d, s1⟩, hd, ⟨k, s2⟩, hk, he⟩ := h2
      simp only [pure, Option.some.injEq, Prod.mk.injEq] at he
      obtain ⟨rfl, rfl⟩ := he
      obtain ⟨g0, hg0, e0, htd, hst⟩ := type_inv hd
      obtain ⟨g1, hg1, e1, hn⟩ := keywords_inv hk
      simp only [] at e0 e1 hst
      refine ⟨_, ?_, .declare g0 d g1 k [] hg0 htd hg1 hn (gap_or_bar hn (e1 ▸ hst)) .nil, .inr ⟨_, _, rfl⟩⟩
      rw [e0, e1]
      simp
    | none =>
      rw [h2] at h
      simp at h
      unfold statement1 at h
      simp only [bind, Option.bind_eq_some_iff] at h
      obtain ⟨⟨k, s2⟩, hk, s3, hli, ⟨v, s4⟩, hv, he⟩ := h
      simp only [pure, Option.some.injEq, Prod.mk.injEq] at he
      obtain ⟨rfl, rfl⟩ := he
      obtain ⟨g1, hg1, e1, hn⟩ := keywords_inv hk
      obtain ⟨g2, hg2, e2⟩ := lit_inv hli
      obtain ⟨g3, hg3, e3, hval, hsemi⟩ := value_inv hv
      simp only [] at e1 e2 e3
      refine ⟨_, ?_, .assign g1 k g2 g3 v hg1 hn hg2 hg3 hval, .inl hsemi⟩
      rw [e1, e2, e3]
      simp

/-- A gap before a semicolon belongs to the statement. -/
theorem layout_gap {st : Stmt} {t g r : Str} (hl : Layout st t) (hg : Gap g)
    (h : AtSemi (g ++ ';' :: r) ∨ ∃ d n, st = .declare d n) : Layout st (t ++ g) := by
  rcases h with h | ⟨d, n, rfl⟩
  · cases hg with
    | nil => rw [List.append_nil]; exact hl
    | space c g hc _ =>
      have := h c rfl
      rw [this] at hc; exact absurd hc (by decide)
    | comment t e g _ _ _ => exact absurd (h '#' rfl) (by decide)
  · cases hl with
    | declare g0 d g1 n g2 hg0 hd hg1 hn h hg2 =>
      have := Layout.declare g0 d g1 n (g2 ++ g) hg0 hd hg1 hn h (gap_append hg2 hg)
      simpa using this

/-- The texts of statements with semicolons in between. -/
def joined (l : List (Stmt × Str)) : Str := [';'].intercalate (l.map (·.2))

theorem joined_cons (e f : Stmt × Str) (l : List (Stmt × Str)) : joined (e :: f :: l) = e.2 ++ ';' :: joined (f :: l) := by
  simp [joined, List.intercalate, List.intersperse]

theorem more_inv (n : Nat) : ∀ (st : Stmt) (t r : Str) (l : List Stmt) (u : Str), Layout st t →
    (AtSemi r ∨ ∃ d n, st = .declare d n) → moreStatements n r = (l, u) →
    ∃ items : List (Stmt × Str), items ≠ [] ∧ items.map (·.1) = st :: l ∧ (∀ e ∈ items, Layout e.1 e.2) ∧
      t ++ r = joined items ++ u := by
  induction n with
  | zero =>
    intro st t r l u hl _ h
    rw [moreStatements] at h
    cases h
    exact ⟨[(st, t)], by simp, rfl, by simpa using hl, by simp [joined, List.intercalate]⟩
  | succ n ih =>
    intro st t r l u hl hr h
    have done : (l, u) = (([] : List Stmt), r) → ∃ items : List (Stmt × Str), items ≠ [] ∧ items.map (·.1) = st :: l ∧
        (∀ e ∈ items, Layout e.1 e.2) ∧ t ++ r = joined items ++ u := by
      intro e
      cases e
      exact ⟨[(st, t)], by simp, rfl, by simpa using hl, by simp [joined, List.intercalate]⟩
    rw [moreStatements] at h
    split at h
    · exact done h.symm
    · rename_i s hs
      split at h
      · exact done h.symm
      · rename_i st' r' hst
        obtain ⟨g, hg, e⟩ := lit_inv hs
        obtain ⟨t', e', hl', hr'⟩ := statement_inv hst
        cases hm : moreStatements n r' with
        | mk l' u' =>
          rw [hm] at h
          simp only [] at h
          cases h
          obtain ⟨items, hne, h1, h2, h3⟩ := ih st' t' r' l' _ hl' hr' hm
          rw [e] at hr
          obtain ⟨f, items', rfl⟩ : ∃ f items', items = f :: items' := by
            cases items with
            | nil => exact absurd rfl hne
            | cons f items' => exact ⟨f, items', rfl⟩
          refine ⟨(st, t ++ g) :: f :: items', by simp, by simp [← h1], ?_, ?_⟩
          · intro x hx
            rcases List.mem_cons.1 hx with rfl | hx
            · exact layout_gap hl hg hr
            · exact h2 x hx
          · rw [joined_cons, e, e', h3]
            simp

theorem empty_gap (s : Str) (h : s.all isEmptyChar = true) : Gap s := by
  induction s with
  | nil => exact .nil
  | cons c s ih =>
    rw [List.all_cons, Bool.and_eq_true] at h
    refine .space c s ?_ (ih h.2)
    have h1 := h.1
    unfold isEmptyChar at h1
    rw [decide_eq_true_eq] at h1
    rcases h1 with rfl | rfl | rfl | rfl <;> decide

theorem checkRest_inv {s : Str} (h : checkRest s = .ok ()) : ∃ c g x, s = c :: (g ++ x) ∧ Gap g ∧ x.length ≤ 1 := by
  unfold checkRest at h
  split at h
  · cases h
  · rename_i c r
    obtain ⟨g, hg, e⟩ := skip_split r
    by_cases h1 : r ≠ [] ∧ (! r.all isEmptyChar) = true
    · rw [if_pos h1] at h
      by_cases h2 : (skip r).length ≠ 1 ∧ (! (skip r).all isEmptyChar) = true
      · simp only [if_pos h2] at h; cases h
      · by_cases h3 : (skip r).length = 1
        · exact ⟨c, g, skip r, by rw [← e], hg, by omega⟩
        · have h4 : (skip r).all isEmptyChar = true := by
            by_contra h5
            exact h2 ⟨h3, by simpa using h5⟩
          refine ⟨c, r, [], by simp, ?_, by simp⟩
          rw [e]
          exact gap_append hg (empty_gap _ h4)
    · refine ⟨c, r, [], by simp, ?_, by simp⟩
      by_cases h3 : r = []
      · rw [h3]; exact .nil
      · refine empty_gap r ?_
        by_contra h5
        exact h1 ⟨h3, by simpa using h5⟩

/-- **C78** No text is lost: a file that is accepted is a list of statements with semicolons in between, and all that
follows is white space, comments and at most two characters; and what is done is what these statements say.  Without any
statement, the first character of the file is one of the two. -/
theorem file_sound (fs : Files) (s : Str) (st : State) (h : ainur fs s = .ok st) :
    ∃ (l : List (Stmt × Str)) (g g' x : Str) (c : Char), s = joined l ++ (g ++ c :: (g' ++ x)) ∧
      (∀ e ∈ l, Layout e.1 e.2) ∧ Gap g ∧ Gap g' ∧ x.length ≤ 1 ∧
      (l.map (·.1)).foldlM Stmt.act State.init >>= initMacros fs = .ok st := by
  unfold ainur at h
  have hlex : lexical s = .ok () := by
    by_cases hc : ∀ c ∈ s, Allowed c
    · exact (lexical_iff s).1 hc
    · rw [(lexical_iff s).2 hc] at h; cases h
  rw [hlex] at h
  simp only [bind, Except.bind] at h ⊢
  cases hf : (phraseParse s).1.foldlM Stmt.act State.init with
  | error e => rw [hf] at h; cases h
  | ok s1 =>
    rw [hf] at h
    simp only [] at h
    cases hk : checkRest (phraseParse s).2 with
    | error e => rw [hk] at h; cases h
    | ok u =>
      rw [hk] at h
      simp only [] at h
      obtain ⟨c, g', x, e, hg', hx⟩ := checkRest_inv hk
      cases hs : statement s with
      | none =>
        have hp : phraseParse s = ([], s) := by unfold phraseParse; rw [hs]
        rw [hp] at hf e
        simp only [] at hf e
        refine ⟨[], [], g', x, c, by simp [joined, List.intercalate, ← e], by simp, .nil, hg', hx, ?_⟩
        rw [show (([] : List (Stmt × Str)).map (·.1)) = [] from rfl, hf]
        exact h
      | some y =>
        obtain ⟨t1, r1⟩ := y
        cases hm : moreStatements s.length r1 with
        | mk l u =>
          have hp : phraseParse s = (t1 :: l, skip u) := by
            unfold phraseParse
            rw [hs]
            simp only []
            rw [hm]
          rw [hp] at hf e
          simp only [] at hf e
          obtain ⟨t, e1, hl, hr⟩ := statement_inv hs
          obtain ⟨items, _, h1, h2, h3⟩ := more_inv _ t1 t r1 l u hl hr hm
          obtain ⟨g, hg, e2⟩ := skip_split u
          refine ⟨items, g, g', x, c, ?_, h2, hg, hg', hx, ?_⟩
          · rw [e1, h3, ← e, ← e2]
          · rw [h1, hf]
            exact h

/-! ## What is read in another way than it is written -/

/-- **C78** A name such as `a_b` is not assigned to: the statement declares a variable `_b` of type `a`. -/
theorem name_splits (g0 n g1 g2 v a b s : Str) (hg0 : Gap g0) (hg1 : Gap g1) (hg2 : Gap g2) (hv : IsValue v) (hb : Begins v)
    (hn : IsName n) (hs : Splits n a b) : Layout (.assign n v) (g0 ++ (n ++ (g1 ++ '=' :: (g2 ++ v)))) ∧
    ∃ r, statement (g0 ++ (n ++ (g1 ++ '=' :: (g2 ++ v))) ++ ';' :: s) = some (.define a b v, r) := by
  refine ⟨.assign g0 n g1 g2 v hg0 hn hg1 hg2 hv, ?_⟩
  obtain ⟨u0, l0, r0, en, hu0, h00, hl0, hr0⟩ := hn
  obtain ⟨u, c, r, e1, e2, ha0, ha, hu0', hu, hc⟩ := hs
  have hlay : Layout (.define a b v) (g0 ++ (a ++ ([] ++ (b ++ (g1 ++ '=' :: (g2 ++ v)))))) := by
    refine .define g0 a [] b g1 g2 v hg0 ⟨ha0, fun x hx => .inl (ha x hx)⟩ .nil ?_ (.inr ?_) hg1 hg2 hv
    · refine ⟨u, [c], r, by rw [e2]; simp, hu, by simp, by simpa using hc, ?_⟩
      intro x hx
      have hx : x ∈ n := by rw [e1, e2]; simp [hx]
      rw [en, List.mem_append, List.mem_append] at hx
      rcases hx with (hx | hx) | hx
      · exact .inr (.inr (.inr (hu0 x hx)))
      · exact .inl (hl0 x hx)
      · exact hr0 x hx
    · rw [e2]
      cases u with
      | nil => exact absurd rfl hu0'
      | cons y u => simp [hu y (by simp)]
  obtain ⟨r, hr, _⟩ := statement_run hlay hb s
  refine ⟨r, ?_⟩
  rw [e1]
  simpa using hr

theorem ainur_run (fs : Files) (s : Str) (l : List Stmt) (r : Str) (h1 : lexical s = .ok ()) (h2 : phraseParse s = (l, r))
    (h3 : checkRest r = .ok ()) : ainur fs s = l.foldlM Stmt.act State.init >>= initMacros fs := by
  unfold ainur
  rw [h1, h2]
  simp only [h3, bind, Except.bind]

/-- **C78** An assignment to such a name leaves the variable as it was. -/
theorem name_underscore_fails (fs : Files) :
    (ainur fs "integer a_b=3;a_b=4;".toList).toOption.map (fun s => s.vars.map fun a => (a.key, a.value)) =
      some [("a_b".toList, "3".toList), ("_b".toList, "4".toList), (fromFile, '!' :: fromFile)] := by
  rw [ainur_run fs _ [.define "integer".toList "a_b".toList "3".toList, .define "a".toList "_b".toList "4".toList] ";".toList
    (by decide +kernel) (by decide +kernel) (by decide +kernel)]
  rfl

/-- **C78** Without a semicolon at the end, the text after its end is read. -/
theorem last_semicolon_fails (fs : Files) : ainur fs "integer a=3".toList = ubOut := by
  have h1 : lexical "integer a=3".toList = .ok () := by decide +kernel
  have h2 : phraseParse "integer a=3".toList = ([.define "integer".toList "a".toList "3".toList], []) := by decide +kernel
  unfold ainur
  rw [h1, h2]
  rfl

/-- **C78** One character after the last semicolon is ignored, as are two after a declaration. -/
theorem stray_fails (fs : Files) :
    ainur fs "integer a=3; b".toList = ainur fs "integer a=3;".toList ∧
    ainur fs "integer a yz".toList = ainur fs "integer a;".toList := by
  constructor
  · rw [ainur_run fs _ [.define "integer".toList "a".toList "3".toList] "; b".toList
        (by decide +kernel) (by decide +kernel) (by decide +kernel),
      ainur_run fs _ [.define "integer".toList "a".toList "3".toList] ";".toList
        (by decide +kernel) (by decide +kernel) (by decide +kernel)]
  · rw [ainur_run fs _ [.declare "integer".toList "a".toList] "yz".toList
        (by decide +kernel) (by decide +kernel) (by decide +kernel),
      ainur_run fs _ [.declare "integer".toList "a".toList] ";".toList
        (by decide +kernel) (by decide +kernel) (by decide +kernel)]

/-- **C78** A statement that cannot be read may be ignored, if it is short and comes first. -/
theorem first_fails (fs : Files) : ainur fs "3;".toList = initMacros fs .init := by
  rw [ainur_run fs _ [] "3;".toList (by decide +kernel) (by decide +kernel) (by decide +kernel)]
  rfl

/-- **C78** A comment after a value and before its semicolon is part of the value. -/
theorem comment_in_value_fails (fs : Files) :
    (ainur fs "integer a=3 # three\n;".toList).toOption.map (fun s => s.vars.map fun a => (a.key, a.value)) =
      some [("a".toList, "3 # three\n".toList), (fromFile, '!' :: fromFile)] := by
  rw [ainur_run fs _ [.define "integer".toList "a".toList "3 # three\n".toList] ";".toList
    (by decide +kernel) (by decide +kernel) (by decide +kernel)]
  rfl

/-! ## A file -/

/-- A file with comments, a declaration, a definition and an assignment. -/
def example1 : List (Stmt × Str) :=
  [(.define "integer".toList "a_b".toList "3".toList, "##Ainur1.0\ninteger a_b=3".toList),
   (.declare "vector".toList "x".toList, "\nvector x # a vector\n".toList),
   (.assign "x".toList "[1, 2]".toList, " x = [1, 2]".toList)]

theorem gap_comment1 : Gap "##Ainur1.0\n".toList :=
  .comment "#Ainur1.0".toList '\n' [] (by unfold IsEol; decide) (.inr rfl) .nil

theorem gap_comment2 : Gap " # a vector\n".toList :=
  .space ' ' _ (by decide) (.comment " a vector".toList '\n' [] (by unfold IsEol; decide) (.inr rfl) .nil)

theorem gap_blank : Gap [' '] := .space ' ' [] (by decide) .nil

theorem letters_dec (l : Str) (h : l.all aToZ = true) : ∀ c ∈ l, Letter c := by
  intro c hc
  exact (aToZ_iff c).1 (List.all_eq_true.1 h c hc)

theorem name_x : IsName "x".toList := ⟨[], "x".toList, [], rfl, by simp, by decide, letters_dec _ (by decide), by simp⟩

theorem example1_ok : ∀ e ∈ example1, Layout e.1 e.2 ∧ e.1.Clear := by
  intro e he
  simp only [example1, List.mem_cons, List.not_mem_nil, or_false] at he
  rcases he with rfl | rfl | rfl
  · refine ⟨.define "##Ainur1.0\n".toList "integer".toList [' '] "a_b".toList [] [] "3".toList gap_comment1
      ⟨by decide, fun c hc => .inl (letters_dec _ (by decide) c hc)⟩ gap_blank
      ⟨[], "a".toList, "_b".toList, rfl, by simp, by decide, letters_dec _ (by decide), ?_⟩ (.inl (by simp)) .nil .nil
      ⟨by decide, by decide⟩, ?_⟩
    · intro c hc
      exact (nameChar_iff c).1 (List.all_eq_true.1 (show "_b".toList.all nameChar = true by decide) c hc)
    · intro c hc; cases hc; decide
  · exact ⟨.declare ['\n'] "vector".toList [' '] "x".toList " # a vector\n".toList (.space '\n' [] (by decide) .nil)
      ⟨by decide, fun c hc => .inl (letters_dec _ (by decide) c hc)⟩ gap_blank name_x (.inl (by simp)) gap_comment2, trivial⟩
  · refine ⟨.assign [' '] "x".toList [' '] [' '] "[1, 2]".toList gap_blank name_x gap_blank gap_blank
      ⟨by decide, by decide⟩, ?_, ?_⟩
    · rintro a b ⟨u, c, r, e1, e2, h1, _, h2, _⟩
      have := congrArg List.length e1
      rw [e2] at this
      have l1 := List.length_pos_of_ne_nil h1
      have l2 := List.length_pos_of_ne_nil h2
      simp at this
      omega
    · intro c hc; cases hc; decide

instance (c : Char) : Decidable (Allowed c) := inferInstanceAs (Decidable (_ ∨ _))

instance : (o : Op) → Decidable o.NoMacro
  | .declare _ _ v => inferInstanceAs (Decidable ('\\' ∉ v))
  | .assign _ v => inferInstanceAs (Decidable ('\\' ∉ v))
  | .read _ => isTrue trivial

/-- The hypotheses of the theorems are met by this file. -/
example : example1 ≠ [] ∧ Gap ['\n'] ∧ (∀ c ∈ fileText example1 ['\n'], Allowed c) ∧
    (∀ e ∈ example1, e.1.op.Plain ∧ e.1.op.NoMacro) ∧ (∀ a ∈ answers [] (fileOps example1), a = .done) := by
  refine ⟨by simp [example1], .space '\n' [] (by decide) .nil, by decide +kernel, ?_, by decide +kernel⟩
  intro e he
  simp only [example1, List.mem_cons, List.not_mem_nil, or_false] at he
  rcases he with rfl | rfl | rfl
  · exact ⟨by simp [Stmt.op, Op.Plain], by simp only [Stmt.op]; decide⟩
  · exact ⟨by simp [Stmt.op, Op.Plain], by simp only [Stmt.op]; decide⟩
  · exact ⟨by simp [Stmt.op, Op.Plain], by simp only [Stmt.op]; decide⟩

/-- The values of this file. -/
example : answers (fileOps example1).reverse [.read "a_b".toList, .read "x".toList, .read "b".toList] =
    [.value "3".toList, .value "[1, 2]".toList, .refused] := by decide +kernel

end Verif.Ainur
