import Verif.Ainur.PropsState

/-!
# C50: Ainur macros
-/

namespace Verif.Ainur

open Verif.Str Verif.StrUtil

/-! ## One expansion -/

/-- Every macro replaced by its value, once. -/
def expand1 (tbl : Str → Option Template) : Template → Option Template
  | [] => some []
  | .char c :: t => (expand1 tbl t).map (.char c :: ·)
  | .use n c :: t =>
    match tbl n with
    | none => none
    | some v => (expand1 tbl t).map fun r => v ++ .char c :: r

theorem Template.text_cons (p : Piece) (t : Template) : Template.text (p :: t) = p.text ++ Template.text t := by
  simp [Template.text]

theorem Template.text_append (t t' : Template) : Template.text (t ++ t') = Template.text t ++ Template.text t' := by
  simp [Template.text]

theorem Full.append {tbl : Str → Option Template} {t t' : Template} {r r' : Str} (h : Full tbl t r)
    (h' : Full tbl t' r') : Full tbl (t ++ t') (r ++ r') := by
  induction h with
  | nil => exact h'
  | char c t r _ ih => exact .char c _ _ ih
  | use n c t v rv r h1 h2 _ _ ih =>
    have := Full.use n c _ v rv _ h1 h2 ih
    simpa using this

theorem Full.split {tbl : Str → Option Template} (t t' : Template) (r : Str) (h : Full tbl (t ++ t') r) :
    ∃ r1 r2, r = r1 ++ r2 ∧ Full tbl t r1 ∧ Full tbl t' r2 := by
  induction t generalizing r with
  | nil => exact ⟨[], r, rfl, .nil, h⟩
  | cons p t ih =>
    cases h with
    | char c _ r h =>
      obtain ⟨r1, r2, rfl, h1, h2⟩ := ih _ h
      exact ⟨c :: r1, r2, rfl, .char c t r1 h1, h2⟩
    | use n c _ v rv r h1 h2 h3 =>
      obtain ⟨r1, r2, rfl, h4, h5⟩ := ih _ h3
      exact ⟨rv ++ c :: r1, r2, by simp, .use n c t v rv r1 h1 h2 h4, h5⟩

theorem full_expand1 {tbl : Str → Option Template} (t t' : Template) (h : expand1 tbl t = some t') (r : Str)
    (hf : Full tbl t' r) : Full tbl t r := by
  induction t generalizing t' r with
  | nil => cases h; exact hf
  | cons p t ih =>
    cases p with
    | char c =>
      obtain ⟨u, h1, rfl⟩ := Option.map_eq_some_iff.1 h
      cases hf with
      | char _ _ r hf => exact .char c t r (ih u h1 r hf)
    | use n c =>
      simp only [expand1] at h
      cases hn : tbl n with
      | none => rw [hn] at h; cases h
      | some v =>
        rw [hn] at h
        obtain ⟨u, h1, rfl⟩ := Option.map_eq_some_iff.1 h
        obtain ⟨r1, r2, rfl, h2, h3⟩ := Full.split _ _ _ hf
        cases h3 with
        | char _ _ r h3 => exact .use n c t v r1 r hn h2 (ih u h1 r h3)

/-- Expanding some values of the table once does not change what they stand for. -/
theorem full_step {tbl tbl' : Str → Option Template}
    (h : ∀ n v', tbl' n = some v' → tbl n = some v' ∨ ∃ v, tbl n = some v ∧ expand1 tbl v = some v') (t : Template)
    (r : Str) (hf : Full tbl' t r) : Full tbl t r := by
  induction hf with
  | nil => exact .nil
  | char c t r _ ih => exact .char c t r ih
  | use n c t v rv r h1 _ _ ih1 ih2 =>
    rcases h n v h1 with h3 | ⟨w, h3, h4⟩
    · exact .use n c t v rv r h3 ih1 ih2
    · exact .use n c t w rv r h3 (full_expand1 w v h4 rv ih1) ih2

theorem uses_cons_char (c : Char) (t : Template) : Template.uses (.char c :: t) = t.uses := rfl
theorem uses_cons_use (n : Str) (c : Char) (t : Template) : Template.uses (.use n c :: t) = n :: t.uses := rfl
theorem uses_append (t t' : Template) : Template.uses (t ++ t') = t.uses ++ t'.uses := by
  simp [Template.uses]

/-- Facts on the pieces of an expansion. -/
theorem expand1_mem {tbl : Str → Option Template} (t t' : Template) (h : expand1 tbl t = some t') (p : Piece)
    (hp : p ∈ t') : p ∈ t ∨ (∃ n c, p = .char c ∧ .use n c ∈ t) ∨ ∃ n v, n ∈ t.uses ∧ tbl n = some v ∧ p ∈ v := by
  induction t generalizing t' with
  | nil => cases h; simp at hp
  | cons q t ih =>
    cases q with
    | char c =>
      obtain ⟨u, h1, rfl⟩ := Option.map_eq_some_iff.1 h
      rcases List.mem_cons.1 hp with rfl | hp
      · exact .inl (by simp)
      · rcases ih u h1 hp with h2 | ⟨n, c, rfl, h2⟩ | h2
        · exact .inl (by simp [h2])
        · exact .inr (.inl ⟨n, c, rfl, by simp [h2]⟩)
        · exact .inr (.inr h2)
    | use n c =>
      simp only [expand1] at h
      cases hn : tbl n with
      | none => rw [hn] at h; cases h
      | some v =>
        rw [hn] at h
        obtain ⟨u, h1, rfl⟩ := Option.map_eq_some_iff.1 h
        rcases List.mem_append.1 hp with hp | hp
        · exact .inr (.inr ⟨n, v, by simp [uses_cons_use], hn, hp⟩)
        · rcases List.mem_cons.1 hp with rfl | hp
          · exact .inr (.inl ⟨n, c, rfl, by simp⟩)
          · rcases ih u h1 hp with h2 | ⟨n, c, rfl, h2⟩ | ⟨m, w, h2, h3⟩
            · exact .inl (by simp [h2])
            · exact .inr (.inl ⟨n, c, rfl, by simp [h2]⟩)
            · exact .inr (.inr ⟨m, w, by simp [uses_cons_use, h2], h3⟩)

theorem mem_uses (t : Template) (n : Str) : n ∈ t.uses ↔ ∃ c, Piece.use n c ∈ t := by
  unfold Template.uses
  rw [List.mem_filterMap]
  constructor
  · rintro ⟨p, h1, h2⟩
    cases p with
    | char c => simp at h2
    | use m c => simp at h2; subst h2; exact ⟨c, h1⟩
  · rintro ⟨c, h⟩
    exact ⟨_, h, rfl⟩

theorem expand1_uses {tbl : Str → Option Template} (t t' : Template) (h : expand1 tbl t = some t') :
    ∀ m ∈ t'.uses, ∃ n v, n ∈ t.uses ∧ tbl n = some v ∧ m ∈ v.uses := by
  induction t generalizing t' with
  | nil => cases h; intro m hm; simp [Template.uses] at hm
  | cons q t ih =>
    cases q with
    | char c =>
      obtain ⟨u, h1, rfl⟩ := Option.map_eq_some_iff.1 h
      exact ih u h1
    | use n c =>
      simp only [expand1] at h
      cases hn : tbl n with
      | none => rw [hn] at h; cases h
      | some v =>
        rw [hn] at h
        obtain ⟨u, h1, rfl⟩ := Option.map_eq_some_iff.1 h
        intro m hm
        rw [uses_append, uses_cons_char, List.mem_append] at hm
        rcases hm with hm | hm
        · exact ⟨n, v, by simp [uses_cons_use], hn, hm⟩
        · obtain ⟨n', v', h2, h3⟩ := ih u h1 m hm
          exact ⟨n', v', by simp [uses_cons_use, h2], h3⟩

theorem expand1_some {tbl : Str → Option Template} (t : Template) (h : ∀ n ∈ t.uses, tbl n ≠ none) :
    ∃ t', expand1 tbl t = some t' := by
  induction t with
  | nil => exact ⟨[], rfl⟩
  | cons q t ih =>
    cases q with
    | char c =>
      obtain ⟨u, hu⟩ := ih h
      exact ⟨.char c :: u, by simp [expand1, hu]⟩
    | use n c =>
      obtain ⟨u, hu⟩ := ih (fun m hm => h m (by simp [uses_cons_use, hm]))
      obtain ⟨v, hv⟩ := Option.ne_none_iff_exists'.1 (h n (by simp [uses_cons_use]))
      exact ⟨v ++ .char c :: u, by simp only [expand1, hv, hu, Option.map_some]⟩

/-- The full expansion is unique. -/
theorem Full.unique {tbl : Str → Option Template} {t : Template} {r r' : Str} (h : Full tbl t r) (h' : Full tbl t r') :
    r = r' := by
  induction h generalizing r' with
  | nil => cases h'; rfl
  | char c t r _ ih =>
    cases h' with
    | char _ _ r2 h2 => rw [ih h2]
  | use n c t v rv r h1 _ _ ih1 ih2 =>
    cases h' with
    | use _ _ _ v2 rv2 r2 h3 h4 h5 =>
      rw [h1] at h3; cases h3
      rw [ih1 h4, ih2 h5]

theorem full_text {tbl : Str → Option Template} (t : Template) (h : t.uses = []) : Full tbl t t.text := by
  induction t with
  | nil => exact .nil
  | cons q t ih =>
    cases q with
    | char c => rw [Template.text_cons]; exact .char c t _ (ih h)
    | use n c => simp [uses_cons_use] at h

theorem mem_text (t : Template) (c : Char) : c ∈ t.text ↔ ∃ p ∈ t, c ∈ p.text := by
  simp [Template.text]

/-! ## The state -/

/-- The templates of the variables. -/
structure Wf (s : State) (ts : List Template) : Prop where
  len : ts.length = s.vars.length
  used : s.used.length = s.vars.length
  ok : ∀ t ∈ ts, ∀ p ∈ t, p.Ok
  quote : ∀ t ∈ ts, '"' ∉ t.text
  value : ∀ (i : Nat) (a : Var) (t : Template), s.vars[i]? = some a → ts[i]? = some t →
    a.value = t.text ∨ a.value = '"' :: (t.text ++ ['"'])
  bang : ∀ (i : Nat) (a : Var) (t : Template), s.vars[i]? = some a → ts[i]? = some t →
    if a.key = fromFile then t.uses = [] else '!' ∉ t.text
  native : ∀ t ∈ ts, fromFile ∉ t.uses

/-- The table of the macros. -/
def table (s : State) (ts : List Template) (n : Str) : Option Template :=
  (storageIndexByName s n).bind fun x => ts[x]?

theorem unquote_plain (w : Str) (h : '"' ∉ w) : unquote w = w := by
  unfold unquote
  have h1 : w.head? ≠ some '"' := by
    intro e; exact h (List.mem_of_mem_head? (by simp [e]))
  have h2 : w.getLast? ≠ some '"' := by
    intro e; exact h (List.mem_of_getLast? e)
  simp [h1, h2]

theorem unquote_quoted (w : Str) : unquote ('"' :: (w ++ ['"'])) = w := by
  simp [unquote]

theorem fold_name (s : State) (n : Str) (e : Exp) (hi : e.inside = true) (h : ∀ c ∈ n, isNameChar c = true) :
    n.foldlM (expandChar s) e = .ok { e with name := e.name ++ n } := by
  induction n generalizing e with
  | nil => simp; rfl
  | cons c n ih =>
    have hc := h c (by simp)
    have hb : c ≠ '\\' := by rintro rfl; revert hc; decide
    rw [List.foldlM_cons, show expandChar s e c = .ok { e with name := e.name ++ [c] } by
      simp [expandChar, hb, hi, hc]]
    show (n.foldlM (expandChar s) { e with name := e.name ++ [c] }) = _
    rw [ih { e with name := e.name ++ [c] } hi (fun d hd => h d (by simp [hd]))]
    simp

theorem table_some {s : State} {ts : List Template} (h : Wf s ts) {n : Str} {v : Template}
    (hv : table s ts n = some v) : ∃ x a, storageIndexByName s n = some x ∧ s.vars[x]? = some a ∧ a.key = n ∧
      ts[x]? = some v := by
  unfold table at hv
  obtain ⟨x, h1, h2⟩ := Option.bind_eq_some_iff.1 hv
  obtain ⟨a, h3, h4⟩ := idx_some h1
  exact ⟨x, a, h1, h3, h4, h2⟩

theorem table_none {s : State} {ts : List Template} (h : Wf s ts) {n : Str}
    (hv : table s ts n = none) : storageIndexByName s n = none := by
  cases hx : storageIndexByName s n with
  | none => rfl
  | some x =>
    exfalso
    obtain ⟨a, h3, _⟩ := idx_some hx
    have hlt := (List.getElem?_eq_some_iff.1 h3).1
    rw [← h.len] at hlt
    simp [table, hx, List.getElem?_eq_getElem hlt] at hv

/-- The loop of `expandOneValue` on the text of a template. -/
theorem fold_text (s : State) (ts : List Template) (h : Wf s ts) (t : Template) (ht : ∀ p ∈ t, p.Ok) (ret : Str)
    (has : Bool) :
    t.text.foldlM (expandChar s) ⟨[], ret, has, false⟩ =
      match expand1 (table s ts) t with
      | none => throwOut
      | some t' => .ok ⟨[], ret ++ t'.text, has || !t.uses.isEmpty, false⟩ := by
  induction t generalizing ret has with
  | nil => simp [Template.text, expand1, Template.uses]; rfl
  | cons p t ih =>
    have htr : ∀ p ∈ t, p.Ok := fun q hq => ht q (by simp [hq])
    have hp := ht p (by simp)
    cases p with
    | char c =>
      have hc : c ≠ '\\' := hp
      rw [Template.text_cons, Piece.text, List.singleton_append, List.foldlM_cons,
        show expandChar s ⟨[], ret, has, false⟩ c = .ok ⟨[], ret ++ [c], has, false⟩ by simp [expandChar, hc]]
      show ((Template.text t).foldlM (expandChar s) ⟨[], ret ++ [c], has, false⟩) = _
      rw [ih htr (ret ++ [c]) has]
      simp only [expand1]
      cases expand1 (table s ts) t with
      | none => rfl
      | some t' => simp [Template.text_cons, Piece.text, uses_cons_char]
    | use n c =>
      obtain ⟨hn, hc1, hc2⟩ := hp
      rw [Template.text_cons, Piece.text, List.cons_append, List.foldlM_cons,
        show expandChar s ⟨[], ret, has, false⟩ '\\' = .ok ⟨[], ret, has, true⟩ by simp [expandChar]]
      show (((n ++ [c]) ++ Template.text t).foldlM (expandChar s) ⟨[], ret, has, true⟩) = _
      rw [List.append_assoc, List.foldlM_append, fold_name s n _ rfl hn]
      show (((c :: Template.text t)).foldlM (expandChar s) ⟨[] ++ n, ret, has, true⟩) = _
      rw [List.foldlM_cons, List.nil_append]
      simp only [expand1]
      cases hv : table s ts n with
      | none =>
        have hx := table_none h hv
        have : expandChar s ⟨n, ret, has, true⟩ c = throwOut := by simp [expandChar, hc1, hc2, hx]
        rw [this]; rfl
      | some v =>
        obtain ⟨x, a, h1, h2, h3, h4⟩ := table_some h hv
        have hmem : v ∈ ts := List.mem_of_getElem? h4
        have hun : unquote a.value = v.text := by
          rcases h.value x a v h2 h4 with e | e
          · rw [e]; exact unquote_plain _ (h.quote v hmem)
          · rw [e]; exact unquote_quoted _
        have : expandChar s ⟨n, ret, has, true⟩ c = .ok ⟨[], ret ++ v.text ++ [c], true, false⟩ := by
          simp [expandChar, hc1, hc2, h1, h2, hun]
        rw [this]
        show ((Template.text t).foldlM (expandChar s) ⟨[], ret ++ v.text ++ [c], true, false⟩) = _
        rw [ih htr _ true]
        simp only
        cases expand1 (table s ts) t with
        | none => rfl
        | some t' => simp [Template.text_append, Template.text_cons, Piece.text, uses_cons_use]

theorem expand1_quote (s : State) (ts : List Template) (h : Wf s ts) (q : Char) (hq : ∀ t ∈ ts, q ∉ t.text)
    (t t' : Template) (ht : q ∉ t.text) (he : expand1 (table s ts) t = some t') : q ∉ t'.text := by
  rw [mem_text]
  rintro ⟨p, hp, hc⟩
  rcases expand1_mem t t' he p hp with h1 | ⟨n, c, rfl, h1⟩ | ⟨n, v, _, h2, h3⟩
  · exact ht ((mem_text _ _).2 ⟨p, h1, hc⟩)
  · apply ht
    rw [mem_text]
    refine ⟨_, h1, ?_⟩
    simp only [Piece.text, List.mem_singleton] at hc
    subst hc
    simp [Piece.text]
  · obtain ⟨x, a, _, _, _, h4⟩ := table_some h h2
    exact hq v (List.mem_of_getElem? h4) ((mem_text _ _).2 ⟨p, h3, hc⟩)

theorem expandOne_ok (s : State) (ts : List Template) (h : Wf s ts) (i : Nat) (a : Var) (t : Template)
    (ha : s.vars[i]? = some a) (ht : ts[i]? = some t) :
    expandOneValue s a.value =
      match expand1 (table s ts) t with
      | none => throwOut
      | some t' => .ok (!t.uses.isEmpty, t'.text) := by
  have hmem : t ∈ ts := List.mem_of_getElem? ht
  have hok := h.ok t hmem
  have hq : ∀ t', expand1 (table s ts) t = some t' → '"' ∉ t'.text :=
    fun t' he => expand1_quote s ts h '"' h.quote t t' (h.quote t hmem) he
  unfold expandOneValue
  rcases h.value i a t ha ht with e | e
  · rw [e, fold_text s ts h t hok]
    cases he : expand1 (table s ts) t with
    | none => rfl
    | some t' => simp [bind, Except.bind, pure, Except.pure, unquote_plain _ (hq t' he)]
  · rw [e, List.foldlM_cons, show expandChar s ⟨[], [], false, false⟩ '"' = .ok ⟨[], ['"'], false, false⟩ by
      simp [expandChar]]
    show ((t.text ++ ['"']).foldlM (expandChar s) ⟨[], ['"'], false, false⟩ >>= _) = _
    rw [List.foldlM_append, fold_text s ts h t hok]
    cases he : expand1 (table s ts) t with
    | none => rfl
    | some t' =>
      simp only [bind, Except.bind, List.foldlM_cons, List.foldlM_nil, pure, Except.pure, expandChar]
      rw [if_neg (by decide)]
      simp only [if_true, List.append_assoc, List.singleton_append, List.cons_append, List.nil_append]
      rw [unquote_quoted]
      simp

/-! ## Rounds -/

/-- How the current state (`s`, `ts`) comes from the first one (`s0`, `ts0`). -/
structure Rel (s0 : State) (ts0 : List Template) (s : State) (ts : List Template) : Prop where
  wf : Wf s ts
  used : s.used = s0.used
  funs : s.funs = s0.funs
  keys : s.vars.map (fun a => (a.key, a.type)) = s0.vars.map (fun a => (a.key, a.type))
  full : ∀ (i : Nat) (t t0 : Template) (r : Str), ts[i]? = some t → ts0[i]? = some t0 → Full (table s ts) t r →
    Full (table s0 ts0) t0 r
  same : ∀ (i : Nat) (a0 : Var) (t0 : Template), s0.vars[i]? = some a0 → ts0[i]? = some t0 →
    (s0.used[i]? = some 0 ∨ t0.uses = []) → s.vars[i]? = some a0 ∧ ts[i]? = some t0
  changed : ∀ (i : Nat) (a : Var) (t t0 : Template), s.vars[i]? = some a → ts[i]? = some t → ts0[i]? = some t0 →
    t = t0 ∨ a.value = t.text

theorem rel_refl (s : State) (ts : List Template) (h : Wf s ts) : Rel s ts s ts := by
  refine ⟨h, rfl, rfl, rfl, ?_, ?_, ?_⟩
  · intro i t t0 r h1 h2 h3
    rw [h1] at h2; cases h2; exact h3
  · intro i a t h1 h2 _; exact ⟨h1, h2⟩
  · intro i a t t0 _ h1 h2
    rw [h1] at h2; cases h2; exact .inl rfl

/-- The state with a new value for variable `i`. -/
def State.setVar (s : State) (i : Nat) (v : Str) : State :=
  { s with vars := s.vars.modify i fun a => { a with value := v, opaq := "MACRO".toList } }

theorem setVar_get (s : State) (i : Nat) (v : Str) (j : Nat) (b : Var) (hj : (s.setVar i v).vars[j]? = some b) :
    ∃ a, s.vars[j]? = some a ∧ b.key = a.key ∧ b.type = a.type ∧
      ((j ≠ i ∧ b = a) ∨ (j = i ∧ b.value = v)) := by
  simp only [State.setVar, List.getElem?_modify] at hj
  cases ha : s.vars[j]? with
  | none => rw [ha] at hj; simp at hj
  | some a =>
    rw [ha] at hj
    simp only [Option.map_eq_map, Option.map_some, Option.some.injEq] at hj
    by_cases hij : i = j
    · subst hij
      simp only [if_true] at hj
      subst hj
      exact ⟨a, rfl, rfl, rfl, .inr ⟨rfl, rfl⟩⟩
    · simp only [if_neg hij] at hj
      subst hj
      exact ⟨a, rfl, rfl, rfl, .inl ⟨fun e => hij e.symm, rfl⟩⟩

theorem setVar_idx (s : State) (i : Nat) (v : Str) (n : Str) :
    storageIndexByName (s.setVar i v) n = storageIndexByName s n := by
  have hk : ∀ (s s' : State), s.vars.map (·.key) = s'.vars.map (·.key) →
      storageIndexByName s n = storageIndexByName s' n := by
    intro s s' e
    have : ∀ s : State, storageIndexByName s n = (s.vars.map (·.key)).findIdx? (· = n) := by
      intro s; rw [storageIndexByName, List.findIdx?_map]; rfl
    rw [this, this, e]
  apply hk
  apply List.ext_getElem
  · simp [State.setVar]
  · intro j h1 h2
    simp only [State.setVar, List.getElem_map, List.getElem_modify]
    split <;> rfl

theorem piece_char_ok {n : Str} {c : Char} (h : (Piece.use n c).Ok) : (Piece.char c).Ok := h.2.2

theorem step_rel (s0 : State) (ts0 : List Template) (s : State) (ts : List Template) (h : Rel s0 ts0 s ts) (i : Nat)
    (t t' : Template) (ht : ts[i]? = some t) (hu : t.uses ≠ []) (hused : s.used[i]? ≠ some 0)
    (he : expand1 (table s ts) t = some t') :
    Rel s0 ts0 (s.setVar i t'.text) (ts.set i t') ∧
      ∀ n v', table (s.setVar i t'.text) (ts.set i t') n = some v' →
        table s ts n = some v' ∨ table s ts n = some t ∧ v' = t' := by
  have hmem : t ∈ ts := List.mem_of_getElem? ht
  have hi : i < ts.length := (List.getElem?_eq_some_iff.1 ht).1
  have hset : ∀ (j : Nat) (u : Template), (ts.set i t')[j]? = some u → (j ≠ i ∧ ts[j]? = some u) ∨ (j = i ∧ u = t') := by
    intro j u hj
    rw [List.getElem?_set] at hj
    by_cases hij : i = j
    · subst hij
      rw [if_pos rfl, if_pos hi] at hj
      cases hj; exact .inr ⟨rfl, rfl⟩
    · rw [if_neg hij] at hj
      exact .inl ⟨fun e => hij e.symm, hj⟩
  have hkey : ∀ a, s.vars[i]? = some a → a.key ≠ fromFile := by
    intro a ha e
    have := h.wf.bang i a t ha ht
    rw [if_pos e] at this
    exact hu this
  have hmset : ∀ u ∈ ts.set i t', u ∈ ts ∨ u = t' := by
    intro u hu
    obtain ⟨j, hj⟩ := List.mem_iff_getElem?.1 hu
    rcases hset j u hj with ⟨_, h1⟩ | ⟨_, h1⟩
    · exact .inl (List.mem_of_getElem? h1)
    · exact .inr h1
  have hquote : '"' ∉ t'.text := expand1_quote s ts h.wf '"' h.wf.quote t t' (h.wf.quote t hmem) he
  have htab : ∀ n v', table (s.setVar i t'.text) (ts.set i t') n = some v' →
      table s ts n = some v' ∨ table s ts n = some t ∧ v' = t' := by
    intro n v' hv
    unfold table at hv ⊢
    rw [setVar_idx] at hv
    obtain ⟨x, h1, h2⟩ := Option.bind_eq_some_iff.1 hv
    rw [h1]
    rcases hset x v' h2 with ⟨_, h3⟩ | ⟨rfl, rfl⟩
    · exact .inl (by simp [h3])
    · exact .inr ⟨by simp [ht], rfl⟩
  have hfull : ∀ (u : Template) (r : Str), Full (table (s.setVar i t'.text) (ts.set i t')) u r →
      Full (table s ts) u r := by
    intro u r hf
    refine full_step ?_ u r hf
    intro n v' hv
    rcases htab n v' hv with h1 | ⟨h1, rfl⟩
    · exact .inl h1
    · exact .inr ⟨t, h1, he⟩
  refine ⟨⟨⟨?_, ?_, ?_, ?_, ?_, ?_, ?_⟩, h.used, h.funs, ?_, ?_, ?_, ?_⟩, htab⟩
  · simp [State.setVar, h.wf.len]
  · simp [State.setVar, h.wf.used]
  · intro u hu p hp
    rcases hmset u hu with h1 | rfl
    · exact h.wf.ok u h1 p hp
    · rcases expand1_mem t u he p hp with h1 | ⟨n, c, rfl, h1⟩ | ⟨n, v, _, h2, h3⟩
      · exact h.wf.ok t hmem p h1
      · exact piece_char_ok (h.wf.ok t hmem _ h1)
      · obtain ⟨x, a, _, _, _, h4⟩ := table_some h.wf h2
        exact h.wf.ok v (List.mem_of_getElem? h4) p h3
  · intro u hu
    rcases hmset u hu with h1 | rfl
    · exact h.wf.quote u h1
    · exact hquote
  · intro j b u hb hu'
    obtain ⟨a, ha, _, _, h3⟩ := setVar_get s i t'.text j b hb
    rcases hset j u hu' with ⟨hji, h4⟩ | ⟨hji, rfl⟩
    · rcases h3 with ⟨_, rfl⟩ | ⟨h5, _⟩
      · exact h.wf.value j b u ha h4
      · exact absurd h5 hji
    · rcases h3 with ⟨h5, _⟩ | ⟨_, h5⟩
      · exact absurd hji h5
      · exact .inl h5
  · intro j b u hb hu'
    obtain ⟨a, ha, hk, _, h3⟩ := setVar_get s i t'.text j b hb
    rcases hset j u hu' with ⟨hji, h4⟩ | ⟨rfl, rfl⟩
    · rw [hk]; exact h.wf.bang j a u ha h4
    · have hne := hkey a ha
      rw [hk, if_neg hne, mem_text]
      have hb0 := h.wf.bang j a t ha ht
      rw [if_neg hne, mem_text] at hb0
      rintro ⟨p, hp, hc⟩
      rcases expand1_mem t u he p hp with h1 | ⟨n, c, rfl, h1⟩ | ⟨n, v, h1, h2, h3⟩
      · exact hb0 ⟨p, h1, hc⟩
      · apply hb0
        refine ⟨_, h1, ?_⟩
        simp only [Piece.text, List.mem_singleton] at hc
        subst hc
        simp [Piece.text]
      · obtain ⟨x, a2, _, h5, h6, h7⟩ := table_some h.wf h2
        have := h.wf.bang x a2 v h5 h7
        rw [if_neg (by intro e; rw [h6] at e; exact h.wf.native t hmem (e ▸ h1)), mem_text] at this
        exact this ⟨p, h3, hc⟩
  · intro u hu
    rcases hmset u hu with h1 | rfl
    · exact h.wf.native u h1
    · intro hf
      obtain ⟨n, v, _, h2, h3⟩ := expand1_uses t u he _ hf
      obtain ⟨x, a, _, _, _, h4⟩ := table_some h.wf h2
      exact h.wf.native v (List.mem_of_getElem? h4) h3
  · rw [← h.keys]
    apply List.ext_getElem
    · simp [State.setVar]
    · intro j h1 h2
      simp only [State.setVar, List.getElem_map, List.getElem_modify]
      split <;> rfl
  · intro j u t0 r hu' h0 hf
    have hf' := hfull u r hf
    rcases hset j u hu' with ⟨_, h4⟩ | ⟨rfl, rfl⟩
    · exact h.full j u t0 r h4 h0 hf'
    · exact h.full j t t0 r ht h0 (full_expand1 t u he r hf')
  · intro j a0 t0 h1 h2 h3
    obtain ⟨h4, h5⟩ := h.same j a0 t0 h1 h2 h3
    have hji : j ≠ i := by
      rintro rfl
      rcases h3 with h3 | h3
      · exact hused (h.used ▸ h3)
      · rw [ht] at h5; cases h5; exact hu h3
    refine ⟨?_, ?_⟩
    · simp [State.setVar, List.getElem?_modify, hji.symm, h4]
    · rw [List.getElem?_set_ne hji.symm]; exact h5
  · intro j b u t0 hb hu' h0
    obtain ⟨a, ha, _, _, h3⟩ := setVar_get s i t'.text j b hb
    rcases hset j u hu' with ⟨hji, h4⟩ | ⟨hji, rfl⟩
    · rcases h3 with ⟨_, rfl⟩ | ⟨h5, _⟩
      · exact h.changed j b u t0 ha h4 h0
      · exact absurd h5 hji
    · rcases h3 with ⟨h5, _⟩ | ⟨_, h5⟩
      · exact absurd hji h5
      · exact .inr h5

/-- Ranks of the macros: `k` rounds have been done for the variables before `n`, and one less for the others. -/
structure Ranked (rk : Str → Nat) (k n : Nat) (s : State) (ts : List Template) : Prop where
  all : ∀ (i : Nat) (a : Var) (t : Template), s.vars[i]? = some a → ts[i]? = some t → ∀ m ∈ t.uses,
    table s ts m ≠ none ∧ rk m < rk a.key
  done : ∀ (i : Nat) (a : Var) (t : Template), s.vars[i]? = some a → ts[i]? = some t → s.used[i]? ≠ some 0 →
    ∀ m ∈ t.uses, rk m + (if i < n then k + 1 else k) < rk a.key

theorem table_ne_none (s : State) (ts : List Template) (i : Nat) (v : Str) (t' : Template) (m : Str)
    (h : table s ts m ≠ none) : table (s.setVar i v) (ts.set i t') m ≠ none := by
  unfold table at h ⊢
  rw [setVar_idx]
  cases hx : storageIndexByName s m with
  | none => rw [hx] at h; exact h
  | some x =>
    rw [hx] at h
    simp only [Option.bind_some, ne_eq, List.getElem?_eq_none_iff, List.length_set] at h ⊢
    exact h

/-- One variable. -/
theorem expandVar_ok (fs : Files) (s0 : State) (ts0 : List Template) (s : State) (ts : List Template)
    (h : Rel s0 ts0 s ts) (i : Nat) (hi : i < s.vars.length) (f : Bool) :
    (expandVar fs i (s, f) = throwOut ∧ ∃ t, ts[i]? = some t ∧ s.used[i]? ≠ some 0 ∧ expand1 (table s ts) t = none) ∨
    (expandVar fs i (s, f) = .ok (s, f) ∧ ∃ t, ts[i]? = some t ∧ (s.used[i]? = some 0 ∨ t.uses = [])) ∨
    ∃ t t', ts[i]? = some t ∧ s.used[i]? ≠ some 0 ∧ t.uses ≠ [] ∧ expand1 (table s ts) t = some t' ∧
      expandVar fs i (s, f) = .ok (s.setVar i t'.text, true) := by
  have ha : s.vars[i]? = some s.vars[i] := List.getElem?_eq_getElem hi
  have hu : s.used[i]? = some (s.used[i]'(by rw [h.wf.used]; exact hi)) := List.getElem?_eq_getElem _
  have ht : ts[i]? = some (ts[i]'(by rw [h.wf.len]; exact hi)) := List.getElem?_eq_getElem _
  generalize s.used[i]'(by rw [h.wf.used]; exact hi) = u at hu
  generalize ts[i]'(by rw [h.wf.len]; exact hi) = t at ht
  generalize s.vars[i] = a at ha
  have h1 := expandOne_ok s ts h.wf i a t ha ht
  by_cases hu0 : u = 0
  · subst hu0
    right; left
    exact ⟨by simp [expandVar, hu, ha], t, ht, .inl hu⟩
  · cases he : expand1 (table s ts) t with
    | none =>
      left
      rw [he] at h1
      refine ⟨?_, t, ht, by rw [hu]; simpa using hu0, he⟩
      simp only [expandVar, hu, ha, hu0, if_false, h1, bind, Except.bind, throwOut]
    | some t' =>
      rw [he] at h1
      by_cases hus : t.uses = []
      · right; left
        refine ⟨?_, t, ht, .inr hus⟩
        simp only [expandVar, hu, ha, hu0, if_false, h1, bind, Except.bind, hus, List.isEmpty_nil, Bool.not_true,
          Bool.not_false, if_true, pure, Except.pure]
      · right; right
        refine ⟨t, t', ht, by rw [hu]; simpa using hu0, hus, he, ?_⟩
        have hrel := (step_rel s0 ts0 s ts h i t t' ht hus (by rw [hu]; simpa using hu0) he).1
        have hget : (ts.set i t')[i]? = some t' := by
          rw [List.getElem?_set, if_pos rfl, if_pos (by rw [h.wf.len]; exact hi)]
        have hgetv : (s.setVar i t'.text).vars[i]? = some { a with value := t'.text, opaq := "MACRO".toList } := by
          simp [State.setVar, List.getElem?_modify, ha]
        have hb := hrel.wf.bang i _ t' hgetv hget
        have hkey : a.key ≠ fromFile := by
          intro e
          have := h.wf.bang i a t ha ht
          rw [if_pos e] at this
          exact hus this
        rw [if_neg hkey] at hb
        have hhead : t'.text.head? ≠ some '!' := fun e => hb (List.mem_of_mem_head? (by simp [e]))
        have hemp : t.uses.isEmpty = false := by cases hh : t.uses with
          | nil => exact absurd hh hus
          | cons _ _ => rfl
        simp only [expandVar, hu, ha, hu0, if_false, h1, bind, Except.bind, hemp, Bool.not_true, Bool.not_false,
          Bool.false_eq_true, hhead, pure, Except.pure]
        rfl

/-- A whole round. -/
theorem round_ok (fs : Files) (s0 : State) (ts0 : List Template) (s : State) (ts : List Template)
    (h : Rel s0 ts0 s ts) (n : Nat) (hn : n ≤ s.vars.length) :
    ((List.range n).foldlM (fun r i => expandVar fs i r) (s, false) = throwOut) ∨
    ∃ s' ts' f, (List.range n).foldlM (fun r i => expandVar fs i r) (s, false) = .ok (s', f) ∧ Rel s0 ts0 s' ts' ∧
      s'.vars.length = s.vars.length ∧
      (f = false → s' = s ∧ ts' = ts ∧ ∀ (i : Nat) (t : Template), i < n → ts[i]? = some t → s.used[i]? = some 0 ∨ t.uses = []) := by
  induction n with
  | zero => right; exact ⟨s, ts, false, rfl, h, rfl, fun _ => ⟨rfl, rfl, fun i _ hi => absurd hi (by omega)⟩⟩
  | succ n ih =>
    rw [List.range_succ, List.foldlM_append]
    rcases ih (by omega) with h1 | ⟨s1, ts1, f, h1, h2, h3, h4⟩
    · left; rw [h1]; rfl
    · rw [h1]
      show ([n].foldlM (fun r i => expandVar fs i r) (s1, f) = _) ∨ ∃ _ _ _, [n].foldlM (fun r i => expandVar fs i r) (s1, f) = _ ∧ _
      have hone : [n].foldlM (fun r i => expandVar fs i r) (s1, f) = expandVar fs n (s1, f) := by
        simp
      rw [hone]
      rcases expandVar_ok fs s0 ts0 s1 ts1 h2 n (by omega) f with ⟨h5, _⟩ | ⟨h5, t, h6, h7⟩ | ⟨t, t', h5, h6, h7, h8, h9⟩
      · exact .inl h5
      · right
        refine ⟨s1, ts1, f, h5, h2, h3, ?_⟩
        intro hf
        obtain ⟨rfl, rfl, h8⟩ := h4 hf
        refine ⟨rfl, rfl, ?_⟩
        intro i t2 hi ht2
        by_cases hin : i < n
        · exact h8 i t2 hin ht2
        · have : i = n := by omega
          subst this
          rw [h6] at ht2; cases ht2; exact h7
      · right
        refine ⟨_, ts1.set n t', true, h9, (step_rel s0 ts0 s1 ts1 h2 n t t' h5 h7 h6 h8).1, ?_, by simp⟩
        simp [State.setVar, h3]

theorem loop_ok (fs : Files) (s0 : State) (ts0 : List Template) (k : Nat) (s : State) (ts : List Template)
    (h : Rel s0 ts0 s ts) :
    expandLoop fs k s = throwOut ∨
    ∃ s' ts', expandLoop fs k s = .ok s' ∧ Rel s0 ts0 s' ts' ∧
      ∀ (i : Nat) (t : Template), ts'[i]? = some t → s'.used[i]? = some 0 ∨ t.uses = [] := by
  induction k generalizing s ts with
  | zero =>
    rw [expandLoop]
    rcases round_ok fs s0 ts0 s ts h s.vars.length (le_refl _) with h1 | ⟨s1, ts1, f, h1, h2, h3, h4⟩
    · left; unfold expandMacros; rw [h1]; rfl
    · unfold expandMacros; rw [h1]
      cases f with
      | true => left; rfl
      | false =>
        right
        obtain ⟨rfl, rfl, h5⟩ := h4 rfl
        refine ⟨s1, ts1, rfl, h2, fun i t ht => h5 i t ?_ ht⟩
        have := (List.getElem?_eq_some_iff.1 ht).1
        rw [← h2.wf.len]; exact this
  | succ k ih =>
    rw [expandLoop]
    rcases round_ok fs s0 ts0 s ts h s.vars.length (le_refl _) with h1 | ⟨s1, ts1, f, h1, h2, h3, h4⟩
    · left; unfold expandMacros; rw [h1]; rfl
    · unfold expandMacros; rw [h1]
      cases f with
      | true => exact ih s1 ts1 h2
      | false =>
        right
        obtain ⟨rfl, rfl, h5⟩ := h4 rfl
        refine ⟨s1, ts1, rfl, h2, fun i t ht => h5 i t ?_ ht⟩
        have := (List.getElem?_eq_some_iff.1 ht).1
        rw [← h2.wf.len]; exact this

theorem step_ranked (rk : Str → Nat) (k : Nat) (s0 : State) (ts0 : List Template) (s : State) (ts : List Template)
    (h : Rel s0 ts0 s ts) (i : Nat) (hr : Ranked rk k i s ts) (t t' : Template) (ht : ts[i]? = some t)
    (hused : s.used[i]? ≠ some 0) (he : expand1 (table s ts) t = some t') :
    Ranked rk k (i + 1) (s.setVar i t'.text) (ts.set i t') := by
  have hi : i < ts.length := (List.getElem?_eq_some_iff.1 ht).1
  have hnew : ∀ a, s.vars[i]? = some a → ∀ m ∈ t'.uses, table s ts m ≠ none ∧ rk m + (k + 1) < rk a.key := by
    intro a ha m hm
    obtain ⟨n, v, h1, h2, h3⟩ := expand1_uses t t' he m hm
    obtain ⟨x, b, _, h5, h6, h7⟩ := table_some h.wf h2
    have g1 := hr.all x b v h5 h7 m h3
    have g2 := hr.done i a t ha ht hused n h1
    rw [if_neg (by omega)] at g2
    rw [h6] at g1
    exact ⟨g1.1, by omega⟩
  refine ⟨?_, ?_⟩
  · intro j b u hb hu m hm
    obtain ⟨a, ha, hk, _, h3⟩ := setVar_get s i t'.text j b hb
    rw [List.getElem?_set] at hu
    by_cases hij : i = j
    · subst hij
      rw [if_pos rfl, if_pos hi] at hu
      cases hu
      obtain ⟨g1, g2⟩ := hnew a ha m hm
      exact ⟨table_ne_none s ts i _ t' m g1, by rw [hk]; omega⟩
    · rw [if_neg hij] at hu
      obtain ⟨g1, g2⟩ := hr.all j a u ha hu m hm
      exact ⟨table_ne_none s ts i _ t' m g1, by rw [hk]; exact g2⟩
  · intro j b u hb hu hus m hm
    obtain ⟨a, ha, hk, _, h3⟩ := setVar_get s i t'.text j b hb
    rw [List.getElem?_set] at hu
    by_cases hij : i = j
    · subst hij
      rw [if_pos rfl, if_pos hi] at hu
      cases hu
      rw [if_pos (by omega), hk]
      exact (hnew a ha m hm).2
    · rw [if_neg hij] at hu
      have := hr.done j a u ha hu hus m hm
      rw [hk]
      split at this <;> split <;> omega

theorem round_ranked (fs : Files) (rk : Str → Nat) (k : Nat) (s0 : State) (ts0 : List Template) (s : State)
    (ts : List Template) (h : Rel s0 ts0 s ts) (hr : Ranked rk k 0 s ts) (n : Nat) (hn : n ≤ s.vars.length) :
    ∃ s' ts' f, (List.range n).foldlM (fun r i => expandVar fs i r) (s, false) = .ok (s', f) ∧ Rel s0 ts0 s' ts' ∧
      s'.vars.length = s.vars.length ∧ Ranked rk k n s' ts' ∧
      (f = true → ∃ j m, j < s.vars.length ∧ ∃ b, s0.vars[j]? = some b ∧ rk m + k < rk b.key) := by
  induction n with
  | zero => exact ⟨s, ts, false, rfl, h, rfl, hr, by simp⟩
  | succ n ih =>
    obtain ⟨s1, ts1, f, h1, h2, h3, h4, h5⟩ := ih (by omega)
    rw [List.range_succ, List.foldlM_append, h1]
    show ∃ _ _ _, [n].foldlM (fun r i => expandVar fs i r) (s1, f) = _ ∧ _
    have hone : [n].foldlM (fun r i => expandVar fs i r) (s1, f) = expandVar fs n (s1, f) := by simp
    rw [hone]
    have hv : s1.vars[n]? = some (s1.vars[n]'(by omega)) := List.getElem?_eq_getElem _
    generalize s1.vars[n]'(by omega) = a at hv
    rcases expandVar_ok fs s0 ts0 s1 ts1 h2 n (by omega) f with ⟨h6, t, h7, h8, h9⟩ | ⟨h6, t, h7, h8⟩ |
      ⟨t, t', h6, h7, h8, h9, h10⟩
    · exfalso
      obtain ⟨t', ht'⟩ := expand1_some (tbl := table s1 ts1) t (fun m hm => (h4.all n a t hv h7 m hm).1)
      rw [ht'] at h9; cases h9
    · refine ⟨s1, ts1, f, h6, h2, h3, ⟨h4.all, ?_⟩, h5⟩
      intro i b u hb hu hus m hm
      by_cases hin : i = n
      · subst hin
        rw [h7] at hu; cases hu
        rcases h8 with h8 | h8
        · exact absurd h8 hus
        · rw [h8] at hm; simp at hm
      · have := h4.done i b u hb hu hus m hm
        split at this <;> split <;> omega
    · refine ⟨_, ts1.set n t', true, h10, (step_rel s0 ts0 s1 ts1 h2 n t t' h6 h8 h7 h9).1, by simp [State.setVar, h3],
        step_ranked rk k s0 ts0 s1 ts1 h2 n h4 t t' h6 h7 h9, ?_⟩
      intro _
      obtain ⟨m, hm⟩ := List.exists_mem_of_ne_nil _ h8
      have := h4.done n a t hv h6 h7 m hm
      rw [if_neg (by omega)] at this
      have hk := congrArg (fun l => l[n]?) h2.keys
      simp only [List.getElem?_map, hv, Option.map_some] at hk
      cases hb : s0.vars[n]? with
      | none => rw [hb] at hk; cases hk
      | some b =>
        rw [hb] at hk
        simp only [Option.map_some, Option.some.injEq, Prod.mk.injEq] at hk
        exact ⟨n, m, by omega, b, hb, by rw [← hk.1]; exact this⟩

theorem loop_ranked (fs : Files) (rk : Str → Nat) (R : Nat) (s0 : State) (ts0 : List Template)
    (hR : ∀ a ∈ s0.vars, rk a.key ≤ R) (n k : Nat) (s : State) (ts : List Template) (h : Rel s0 ts0 s ts)
    (hr : Ranked rk k 0 s ts) (hn : R ≤ k + n) : ∃ s', expandLoop fs n s = .ok s' := by
  induction n generalizing k s ts with
  | zero =>
    obtain ⟨s1, ts1, f, h1, h2, h3, h4, h5⟩ := round_ranked fs rk k s0 ts0 s ts h hr s.vars.length (le_refl _)
    rw [expandLoop]
    unfold expandMacros; rw [h1]
    cases f with
    | false => exact ⟨s1, rfl⟩
    | true =>
      obtain ⟨j, m, _, b, hb, hlt⟩ := h5 rfl
      have := hR b (List.mem_of_getElem? hb)
      omega
  | succ n ih =>
    obtain ⟨s1, ts1, f, h1, h2, h3, h4, h5⟩ := round_ranked fs rk k s0 ts0 s ts h hr s.vars.length (le_refl _)
    rw [expandLoop]
    unfold expandMacros; rw [h1]
    cases f with
    | false => exact ⟨s1, rfl⟩
    | true =>
      refine ih (k + 1) s1 ts1 h2 ⟨h4.all, ?_⟩ (by omega)
      intro i b u hb hu hus m hm
      have := h4.done i b u hb hu hus m hm
      have hlt : i < s.vars.length := by rw [← h3]; exact (List.getElem?_eq_some_iff.1 hb).1
      rw [if_pos hlt] at this
      rw [if_neg (by omega)]
      exact this

/-! ## Properties -/

/-- What the expansion does: every variable that is not marked as unused and whose value uses macros gets the full
expansion of its value; all else stays. -/
def Expanded (s : State) (ts : List Template) (s' : State) : Prop :=
  s'.vars.map (fun a => (a.key, a.type)) = s.vars.map (fun a => (a.key, a.type)) ∧ s'.used = s.used ∧
  ∀ (i : Nat) (a a' : Var) (t : Template), s.vars[i]? = some a → s'.vars[i]? = some a' → ts[i]? = some t →
    ((s.used[i]? = some 0 ∨ t.uses = []) → a' = a) ∧
    (s.used[i]? ≠ some 0 → t.uses ≠ [] → Full (table s ts) t a'.value)

/-- **C50** The expansion of macros either throws, or replaces every macro by its full expansion, repeatedly, and
leaves all other text unchanged.  Macros must be followed by a character that is not part of their name (see
`macro_at_end_fails`). -/
theorem expand_sound (fs : Files) (s : State) (ts : List Template) (h : Wf s ts) :
    expandMacrosRecursively fs s = throwOut ∨
    ∃ s', expandMacrosRecursively fs s = .ok s' ∧ Expanded s ts s' := by
  rcases loop_ok fs s ts 101 s ts (rel_refl s ts h) with h1 | ⟨s', ts', h1, h2, h3⟩
  · exact .inl h1
  · right
    refine ⟨s', h1, h2.keys, h2.used, ?_⟩
    intro i a a' t ha ha' ht
    refine ⟨?_, ?_⟩
    · intro hs
      obtain ⟨h4, _⟩ := h2.same i a t ha ht hs
      rw [ha'] at h4; cases h4; rfl
    · intro hu hus
      have hlt : i < ts'.length := by rw [h2.wf.len]; exact (List.getElem?_eq_some_iff.1 ha').1
      have ht' : ts'[i]? = some ts'[i] := List.getElem?_eq_getElem hlt
      have hno : ts'[i].uses = [] := by
        rcases h3 i _ ht' with h4 | h4
        · rw [h2.used] at h4; exact absurd h4 hu
        · exact h4
      have hv : a'.value = (ts'[i]).text := by
        rcases h2.changed i a' _ t ha' ht' ht with h4 | h4
        · rw [h4] at hno; exact absurd hno hus
        · exact h4
      rw [hv]
      exact h2.full i _ t _ ht' ht (full_text _ hno)

/-- **C50** If no macro uses itself, directly or through others, all macros used are declared, and they nest at most
101 deep, the expansion does not throw. -/
theorem expand_total (fs : Files) (s : State) (ts : List Template) (h : Wf s ts) (rk : Str → Nat)
    (hd : ∀ t ∈ ts, ∀ m ∈ t.uses, ∃ a ∈ s.vars, a.key = m)
    (hrk : ∀ (i : Nat) (a : Var) (t : Template), s.vars[i]? = some a → ts[i]? = some t → ∀ m ∈ t.uses, rk m < rk a.key)
    (hR : ∀ a ∈ s.vars, rk a.key ≤ 101) :
    ∃ s', expandMacrosRecursively fs s = .ok s' ∧ Expanded s ts s' := by
  obtain ⟨s', hs'⟩ := loop_ranked fs rk 101 s ts hR 101 0 s ts (rel_refl s ts h) ⟨by
      intro i a t ha ht m hm
      refine ⟨?_, hrk i a t ha ht m hm⟩
      intro e
      obtain ⟨b, hb, hbm⟩ := hd t (List.mem_of_getElem? ht) m hm
      exact idx_none (table_none h e) b hb hbm, by
      intro i a t ha ht _ m hm
      have := hrk i a t ha ht m hm
      split <;> omega⟩ (by omega)
  rcases expand_sound fs s ts h with h1 | h1
  · unfold expandMacrosRecursively at h1
    rw [hs'] at h1; cases h1
  · exact h1

/-- **C50** A variable that uses a macro that is not declared, or that needs itself, makes the expansion throw. -/
theorem expand_refuses (fs : Files) (s : State) (ts : List Template) (h : Wf s ts) (i : Nat) (a : Var) (t : Template)
    (ha : s.vars[i]? = some a) (ht : ts[i]? = some t) (hu : s.used[i]? ≠ some 0) (hus : t.uses ≠ [])
    (hno : ∀ r, ¬ Full (table s ts) t r) : expandMacrosRecursively fs s = throwOut := by
  rcases expand_sound fs s ts h with h1 | ⟨s', h1, h2, _, h3⟩
  · exact h1
  · exfalso
    have hlen : s'.vars.length = s.vars.length := by
      have := congrArg List.length h2
      simpa using this
    have hlt : i < s'.vars.length := by rw [hlen]; exact (List.getElem?_eq_some_iff.1 ha).1
    exact hno _ ((h3 i a _ t ha (List.getElem?_eq_getElem hlt) ht).2 hu hus)

/-- A macro that uses itself has no full expansion. -/
theorem no_full_self (tbl : Str → Option Template) (n : Str) (v : Template) (hv : tbl n = some v) (hn : n ∈ v.uses)
    (r : Str) : ¬ Full tbl v r := by
  have key : ∀ t r, Full tbl t r → n ∉ t.uses := by
    intro t r hf
    induction hf with
    | nil => simp [Template.uses]
    | char c t r _ ih => exact ih
    | use m c t w rv r h1 _ _ ih1 ih2 =>
      rw [uses_cons_use, List.mem_cons]
      rintro (rfl | h)
      · rw [hv] at h1; cases h1; exact ih1 hn
      · exact ih2 h
  exact fun hf => key v r hf hn

/-- A function file is never needed. -/
def noFiles : Files := ⟨fun _ => false, fun _ _ => none⟩

/-- Three variables, one quoted. -/
def state1 : State :=
  ⟨[⟨"a".toList, "1\\b,\\c.".toList, "string".toList, "NORMAL".toList⟩,
    ⟨"b".toList, "\"x\\c-y\"".toList, "string".toList, "NORMAL".toList⟩,
    ⟨"c".toList, "\"77\"".toList, "string".toList, "NORMAL".toList⟩], [1, 1, 1], []⟩

/-- Their templates. -/
def templates1 : List Template :=
  [[.char '1', .use ['b'] ',', .use ['c'] '.'], [.char 'x', .use ['c'] '-', .char 'y'], [.char '7', .char '7']]

example : Wf state1 templates1 := by
  refine ⟨rfl, rfl, ?_, by decide +kernel, ?_, ?_, by decide +kernel⟩
  · have : ∀ t ∈ templates1, ∀ p ∈ t, (match p with
        | .char c => decide (c ≠ '\\')
        | .use n c => n.all isNameChar && !isNameChar c && decide (c ≠ '\\')) = true := by decide +kernel
    intro t ht p hp
    have := this t ht p hp
    cases p with
    | char c => simpa [Piece.Ok] using this
    | use n c => simpa [Piece.Ok, and_assoc] using this
  · intro i a t ha ht
    match i with
    | 0 => cases ha; cases ht; decide +kernel
    | 1 => cases ha; cases ht; decide +kernel
    | 2 => cases ha; cases ht; decide +kernel
    | n + 3 => cases ha
  · intro i a t ha ht
    match i with
    | 0 => cases ha; cases ht; decide +kernel
    | 1 => cases ha; cases ht; decide +kernel
    | 2 => cases ha; cases ht; decide +kernel
    | n + 3 => cases ha

example : (expandMacrosRecursively noFiles state1).map (fun s => s.vars.map (·.value)) =
    .ok ["1x77-y,77.".toList, "x77-y".toList, "\"77\"".toList] := by decide +kernel

/-- **C50** The name of a macro has letters, digits and underscores. -/
theorem name_chars (c : Char) : isNameChar c = true ↔
    c ∈ "abcdefghijklmnopqrstuvwxyzABCDEFGHIJKLMNOPQRSTUVWXYZ0123456789_".toList := by
  constructor
  · intro h
    have hlt : c.toNat < 123 := by
      simp only [isNameChar, Bool.or_eq_true, Bool.and_eq_true, decide_eq_true_eq, beq_iff_eq] at h
      rcases h with ((h | h) | h) | h
      · exact h.2
      · omega
      · omega
      · subst h; decide
    have key : ∀ n : Fin 123, isNameChar (Char.ofNat n) = true →
        Char.ofNat n ∈ "abcdefghijklmnopqrstuvwxyzABCDEFGHIJKLMNOPQRSTUVWXYZ0123456789_".toList := by decide +kernel
    have := key ⟨c.toNat, hlt⟩
    simp only [Char.ofNat_toNat] at this
    exact this h
  · intro h
    have : ∀ c ∈ "abcdefghijklmnopqrstuvwxyzABCDEFGHIJKLMNOPQRSTUVWXYZ0123456789_".toList, isNameChar c = true := by
      decide +kernel
    exact this c h

/-- A macro at the end of a value is not expanded: alone it stays as it is, and after another macro it is dropped. -/
theorem macro_at_end_fails :
    (expandMacrosRecursively noFiles ⟨[⟨"a".toList, "\\b".toList, [], []⟩, ⟨"b".toList, "7".toList, [], []⟩], [1, 1], []⟩).map
      (fun s => s.vars.map (·.value)) = .ok ["\\b".toList, "7".toList] ∧
    (expandMacrosRecursively noFiles ⟨[⟨"a".toList, "\\b+\\b".toList, [], []⟩, ⟨"b".toList, "7".toList, [], []⟩], [1, 1], []⟩).map
      (fun s => s.vars.map (·.value)) = .ok ["7+".toList, "7".toList] := by decide +kernel

/-- Two macros with nothing between them are taken as one with both names. -/
theorem macros_adjacent_fails :
    (expandMacrosRecursively noFiles ⟨[⟨"a".toList, "\\b\\c;".toList, [], []⟩, ⟨"b".toList, "7".toList, [], []⟩,
      ⟨"c".toList, "8".toList, [], []⟩], [1, 1, 1], []⟩) = throwOut := by decide +kernel

/-- The variables declared with `!` are not expanded. -/
theorem marked_not_expanded_fails :
    ((declare .init "string!".toList "a".toList "\\b;".toList).bind fun s =>
      (declare s "string".toList "b".toList "7".toList).bind fun s => (initMacros noFiles s).map
        fun s => s.vars.map (·.value)) = .ok ["\\b;".toList, "7".toList, "!AinurFromFile".toList] := by decide +kernel

/-- The macro for functions in files: the value `\AinurFromFile(…)` becomes `(…)`, and the function is known. -/
example : (initMacros ⟨fun _ => true, fun _ _ => none⟩
    ⟨[⟨"f".toList, "\\AinurFromFile(\"g.txt\")".toList, [], []⟩], [1], []⟩).map
      (fun s => (s.vars.map (·.value), s.funs)) =
    .ok (["(\"g.txt\")".toList, "!AinurFromFile".toList], ["(\"g.txt\")".toList]) := by decide +kernel

end Verif.Ainur
