import Verif.Predicate.Lemmas

/-!
# The predicate language (C37)
-/

namespace Verif.Predicate

open Verif.Str Verif.StrUtil Verif.Ast

/-! ## Finding the operator in the text of a comparison -/

/-- No two `%` in a row. -/
abbrev NoPair : List Char → Prop := List.IsChain fun a b => ¬ (a = '%' ∧ b = '%')

theorem bfs_last : ∀ (n : Nat) (q : List Expr), tsize q = n + 1 → (∀ t ∈ q, t.WF) →
    ∃ s, (bfs (n + 1) q).getLast? = some s ∧ operands s = 0
  | n, [], h, _ => by simp [tsize] at h
  | 0, t :: q, h, hw => by
    rw [tsize_cons, size_eq] at h
    obtain ⟨c, as, hl, _⟩ := hw t (by simp)
    have : tsize as = 0 := by simp only [Expr.args] at h; omega
    have := length_le_tsize as
    refine ⟨c, by simp [bfs, Expr.code], by omega⟩
  | n + 1, t :: q, h, hw => by
    obtain ⟨c, as, hl, ha⟩ := hw t (by simp)
    have h' : tsize (q ++ as) = n + 1 := by
      rw [tsize_cons, size_eq] at h; rw [tsize_append]; simp only [Expr.args] at h; omega
    obtain ⟨s, h1, h2⟩ := bfs_last n (q ++ as) h' (by
      intro x hx
      rcases List.mem_append.1 hx with hx | hx
      · exact hw x (by simp [hx])
      · exact ha x hx)
    refine ⟨s, ?_, h2⟩
    rw [show bfs (n + 1 + 1) (.node c as :: q) = c :: bfs (n + 1) (q ++ as) from rfl]
    rw [List.getLast?_cons, h1]; rfl

theorem symbols_last (e : Expr) (hw : e.WF) : ∃ pre s, symbols e = pre ++ [s] ∧ operands s = 0 := by
  have hs : tsize [e] = e.size := by simp [tsize]
  have hlv : symbols e = bfs e.size [e] := by
    unfold symbols; rw [levels_eq_bfs e.size [e] (by omega), hs]
  obtain ⟨n, hn⟩ : ∃ n, e.size = n + 1 := ⟨e.size - 1, by have := e.size_pos; omega⟩
  obtain ⟨s, h1, h2⟩ := bfs_last n [e] (by omega) (by simpa using hw)
  rw [← hn, ← hlv] at h1
  obtain ⟨pre, h⟩ := List.getLast?_eq_some_iff.1 h1
  exact ⟨pre, s, h, h2⟩

theorem noPair_symbol (s : String) (h : SymbolOk s) : NoPair s.toList := by
  by_cases hp : '%' ∈ s.toList
  · rw [h.2.2 hp]; simp
  · rw [NoPair, List.isChain_iff_getElem]
    intro i hi hc
    exact hp (hc.1 ▸ List.getElem_mem _)

theorem noPair_join : ∀ L : List String, (∀ s ∈ L, SymbolOk s) → NoPair ([':'].intercalate (L.map String.toList))
  | [], _ => by simp [inter_nil]
  | [s], h => by rw [List.map_singleton, inter_one]; exact noPair_symbol s (h s (by simp))
  | s :: u :: r, h => by
    have ih := noPair_join (u :: r) (fun t ht => h t (List.mem_cons_of_mem _ ht))
    rw [List.map_cons] at ih
    rw [List.map_cons, List.map_cons, inter_cons, NoPair, List.isChain_append]
    refine ⟨noPair_symbol s (h s (by simp)), ?_, ?_⟩
    · rw [List.isChain_cons]
      exact ⟨fun y _ hc => by simp at hc, ih⟩
    · intro x _ y hy hc
      simp at hy
      rw [← hy] at hc; simp at hc

theorem last_join (L : List String) (s : String) (hs : s.toList ≠ []) :
    ([':'].intercalate ((L ++ [s]).map String.toList)).getLast? = s.toList.getLast? := by
  induction L with
  | nil => rw [List.nil_append, List.map_singleton, inter_one]
  | cons u r ih =>
    obtain ⟨w, ws, hw⟩ : ∃ w ws, (r ++ [s]).map String.toList = w :: ws := by
      cases hw : (r ++ [s]).map String.toList with
      | nil => simp at hw
      | cons w ws => exact ⟨w, ws, rfl⟩
    rw [List.cons_append, List.map_cons, hw, inter_cons, ← hw, List.getLast?_append, List.getLast?_cons, ih]
    obtain ⟨c, cs, hc⟩ := List.exists_cons_of_ne_nil hs
    rw [hc, List.getLast?_cons]; simp

/-- The text of an expression is not empty, has none of the special characters, no `%%`, and does not end in
`%`. -/
theorem exprText_ok (e : Expr) (hw : e.WF) (hs : ∀ s ∈ symbols e, SymbolOk s) :
    exprText e ≠ [] ∧ (∀ c ∈ exprText e, c ∉ ",&=<>!".toList) ∧ NoPair (exprText e) ∧
      (exprText e).getLast? ≠ some '%' := by
  obtain ⟨pre, s, hp, h0⟩ := symbols_last e hw
  have hso := hs s (by rw [hp]; simp)
  refine ⟨?_, ?_, noPair_join _ hs, ?_⟩
  · apply inter_ne_nil
    · rw [show Expr.levels e.size [e] = symbols e from rfl, hp]; simp
    · intro t ht
      obtain ⟨s, hs', rfl⟩ := List.mem_map.1 ht
      exact (hs s hs').1
  · intro c hc hm
    rcases mem_inter ':' _ c hc with rfl | ⟨t, ht, hct⟩
    · simp at hm
    · obtain ⟨s, hs', rfl⟩ := List.mem_map.1 ht
      refine (hs s hs').2.1 c hct ?_
      simp at hm ⊢
      tauto
  · rw [show exprText e = [':'].intercalate ((symbols e).map String.toList) from rfl, hp, last_join _ _ hso.1]
    intro hl
    have := hso.2.2 (List.mem_of_getLast? hl)
    subst this
    simp [operands] at h0

theorem rel_text_mem (r : Rel) : r.text ∈ ops := by cases r <;> decide

theorem ops_start : ∀ q ∈ ops, ∀ (c : Char) (w : List Char), q = c :: w → c ∈ "=!<>%".toList ∧
    (c = '%' → w = ['%']) := by
  intro q hq c w h
  subst h
  simp only [ops, List.mem_cons, List.not_mem_nil, or_false] at hq
  rcases hq with h | h | h | h | h | h | h <;> · simp at h; simp [h]

/-- The text of a comparison is taken apart into its two sides and its operator. -/
theorem ctor_text (c : Comparison) (hl : c.l.WF) (hh : c.h.WF) (sl : ∀ s ∈ symbols c.l, SymbolOk s)
    (sh : ∀ s ∈ symbols c.h, SymbolOk s) :
    Simple.ctor c.text = some ⟨exprText c.l, c.r.text, exprText c.h⟩ := by
  obtain ⟨l1, l2, l3, l4⟩ := exprText_ok c.l hl sl
  obtain ⟨r1, r2, r3, r4⟩ := exprText_ok c.h hh sh
  rw [ctor_iff]
  refine ⟨rfl, l1, r1, rel_text_mem _, ?_, ?_⟩
  · intro j hj q hq hp
    have hq0 : q ≠ [] := by rintro rfl; revert hq; decide
    obtain ⟨a, w, rfl⟩ := List.exists_cons_of_ne_nil hq0
    obtain ⟨g1, g2⟩ := ops_start _ hq a w rfl
    unfold Comparison.text at hp
    rw [List.append_assoc, List.drop_append_of_le_length (by omega), List.drop_eq_getElem_cons hj, List.cons_append,
      List.cons_prefix_cons] at hp
    obtain ⟨rfl, hp⟩ := hp
    have hmem := l2 _ (List.getElem_mem hj)
    have hpc : (exprText c.l)[j] = '%' := by
      simp at g1 hmem
      tauto
    rw [g2 hpc] at hp
    by_cases hj1 : j + 1 < (exprText c.l).length
    · rw [List.drop_eq_getElem_cons hj1, List.cons_append, List.cons_prefix_cons] at hp
      exact (List.isChain_iff_getElem.1 l3) j hj1 ⟨hpc, hp.1.symm⟩
    · apply l4
      rw [List.getLast?_eq_getElem?, show (exprText c.l).length - 1 = j by omega, List.getElem?_eq_getElem hj, hpc]
  · intro q hq hp
    unfold Comparison.text at hp
    rw [List.append_assoc, List.drop_left] at hp
    have hlen := ops_length q hq
    have hrt := ops_length _ (rel_text_mem c.r)
    rcases hrt with h1 | h1
    · -- one character: the right side does not start with `=`
      rcases hlen with h2 | h2
      · omega
      · exfalso
        obtain ⟨x, y, hr⟩ := List.exists_cons_of_ne_nil r1
        have hx : x ∉ ",&=<>!".toList := r2 x (by rw [hr]; simp)
        rw [hr] at hp
        cases hcr : c.r <;> rw [hcr] at hp h1 <;> simp [Rel.text] at h1
        all_goals
          simp only [ops, List.mem_cons, List.not_mem_nil, or_false] at hq
          rcases hq with h | h | h | h | h | h | h <;> subst h <;> simp [Rel.text, List.cons_prefix_cons] at hp h2
          all_goals (subst hp; simp at hx)
    · omega

/-! ## Evaluating -/

theorem means_unique {V : Type} {o : Ops V} {vars : List (List Char × V)} {e : Expr} {a b : V} (hw : e.WF)
    (ha : Means o vars e a) (hb : Means o vars e b) : a = b := by
  have h1 := karva_value _ e hw a ha []
  have h2 := karva_value _ e hw b hb []
  rw [h1] at h2
  exact Option.some.inj h2

/-- **C37** Each operator compares as it says. -/
theorem compare_spec {V : Type} [LinearOrder V] (toSize : V → Nat) (r : Rel) (a b : V)
    (h : r = Rel.div → toSize b ≠ 0) :
    ∃ t, compareOnOp toSize a r.text b = some t ∧ (t = true ↔ r.holds toSize a b) := by
  cases r
  case div =>
    refine ⟨decide (toSize a % toSize b = 0), by simp [compareOnOp, Rel.text, h rfl], ?_⟩
    simp [Rel.holds, Nat.dvd_iff_mod_eq_zero]
  all_goals exact ⟨_, rfl, by simp [Rel.holds]⟩

theorem comparison_true {V : Type} [LinearOrder V] (o : Ops V) (ttos : V → List Char) (toSize : V → Nat)
    (vars : List (List Char × V)) (hv : VarsOk o ttos vars) (fuel : Nat) (c : Comparison)
    (hc : c.Ok o toSize vars) (hf : c.text.length < fuel) :
    ∃ t, Simple.isTrue o ttos toSize fuel ⟨exprText c.l, c.r.text, exprText c.h⟩ vars = some t ∧
      (t = true ↔ c.Holds o toSize vars) := by
  obtain ⟨a, ha⟩ := hc.vall
  obtain ⟨b, hb, hz⟩ := hc.valh
  obtain ⟨t, h1, h2⟩ := compare_spec toSize c.r a b hz
  have hlen : c.text.length = (exprText c.l).length + c.r.text.length + (exprText c.h).length := by
    simp [Comparison.text]; omega
  refine ⟨t, ?_, ?_⟩
  · unfold Simple.isTrue
    rw [getValue_spec o ttos vars hv fuel c.l a hc.wfl ha hc.syml (by omega),
      getValue_spec o ttos vars hv fuel c.h b hc.wfh hb hc.symh (by omega)]
    exact h1
  · rw [h2]
    constructor
    · exact fun h => ⟨a, b, ha, hb, h⟩
    · rintro ⟨a', b', ha', hb', h⟩
      rwa [means_unique hc.wfl ha ha', means_unique hc.wfh hb hb']

theorem part_length (c : Char) : ∀ (L : List (List Char)) (t : List Char), t ∈ L → t.length ≤ ([c].intercalate L).length
  | [], t, h => by simp at h
  | [u], t, h => by simp at h; subst h; rw [inter_one]
  | u :: w :: r, t, h => by
    rw [inter_cons, List.length_append, List.length_cons]
    rcases List.mem_cons.1 h with rfl | h
    · omega
    · have := part_length c (w :: r) t h; omega

theorem rel_text_chars (r : Rel) : ∀ c ∈ r.text, c ≠ ',' ∧ c ≠ '&' := by cases r <;> decide

theorem comparison_text_ok {V : Type} {o : Ops V} {toSize : V → Nat} {vars : List (List Char × V)} {c : Comparison}
    (hc : c.Ok o toSize vars) : c.text ≠ [] ∧ ∀ x ∈ c.text, x ≠ ',' ∧ x ≠ '&' := by
  obtain ⟨l1, l2, _⟩ := exprText_ok c.l hc.wfl (fun s h => (hc.syml s h).1)
  obtain ⟨_, r2, _⟩ := exprText_ok c.h hc.wfh (fun s h => (hc.symh s h).1)
  refine ⟨by simp [Comparison.text, l1], ?_⟩
  intro x hx
  simp only [Comparison.text, List.mem_append] at hx
  rcases hx with (hx | hx) | hx
  · have := l2 x hx; simp at this; tauto
  · exact rel_text_chars _ x hx
  · have := r2 x hx; simp at this; tauto

/-- The conjunction as the model stores it. -/
def stored (a : List Comparison) : List Simple := a.map fun c => ⟨exprText c.l, c.r.text, exprText c.h⟩

theorem andCtor_text {V : Type} {o : Ops V} {toSize : V → Nat} {vars : List (List Char × V)} (a : List Comparison)
    (ha : ∀ c ∈ a, c.Ok o toSize vars) : andCtor (conjText a) ['&'] = some (stored a) := by
  unfold andCtor conjText
  rw [split_join _ ['&'] ['&'] (by simp) (by simp) ?_]
  · simp only [bind, Option.bind_some]
    apply mapM_some_iff
    · simp [stored]
    · intro i h1 h2
      have hc := ha (a[i]'(by simpa using h1)) (List.getElem_mem _)
      simp only [List.getElem_map, stored]
      exact ctor_text _ hc.wfl hc.wfh (fun s h => (hc.syml s h).1) (fun s h => (hc.symh s h).1)
  · intro t ht
    obtain ⟨c, hc, rfl⟩ := List.mem_map.1 ht
    have := comparison_text_ok (ha c hc)
    refine ⟨this.1, fun x hx => ?_⟩
    simpa using (this.2 x hx).2

theorem andTrue_spec {V : Type} [LinearOrder V] (o : Ops V) (ttos : V → List Char) (toSize : V → Nat)
    (vars : List (List Char × V)) (hv : VarsOk o ttos vars) (fuel : Nat) (a : List Comparison)
    (ha : ∀ c ∈ a, c.Ok o toSize vars) (hf : ∀ c ∈ a, c.text.length < fuel) :
    ∃ t, andTrue o ttos toSize fuel vars (stored a) = some t ∧ (t = true ↔ ∀ c ∈ a, c.Holds o toSize vars) := by
  induction a with
  | nil => exact ⟨true, rfl, by simp⟩
  | cons c a ih =>
    obtain ⟨t, h1, h2⟩ := comparison_true o ttos toSize vars hv fuel c (ha c (by simp)) (hf c (by simp))
    obtain ⟨t', h3, h4⟩ := ih (fun c hc => ha c (by simp [hc])) (fun c hc => hf c (by simp [hc]))
    simp only [stored, List.map_cons, andTrue, h1, bind, Option.bind_some]
    cases t with
    | false =>
      refine ⟨false, rfl, ?_⟩
      simp only [Bool.false_eq_true, false_iff, List.mem_cons, forall_eq_or_imp, not_and]
      intro h; exact absurd (h2.2 h) (by simp)
    | true =>
      refine ⟨t', h3, ?_⟩
      rw [h4]
      simp only [List.mem_cons, forall_eq_or_imp]
      exact ⟨fun h => ⟨h2.1 rfl, h⟩, fun h => h.2⟩

/-- The terms as the model stores them. -/
def storedList : List Item → List (List Simple)
  | [] => []
  | .option _ :: p => storedList p
  | .conj a :: p => stored a :: storedList p

theorem items_text {V : Type} {o : Ops V} {toSize : V → Nat} {vars : List (List Char × V)} (hasSpec : Bool)
    (p : List Item) (hp : ∀ i ∈ p, i.Ok o toSize vars) (ho : hasSpec = true ∨ optionsOf p = []) :
    awesomeItems hasSpec ['&'] (p.map Item.text) = some (storedList p, optionsOf p) := by
  induction p with
  | nil => rfl
  | cons i p ih =>
    cases i with
    | option s =>
      have hspec : hasSpec = true := by
        rcases ho with h | h
        · exact h
        · simp [optionsOf] at h
      have := ih (fun i hi => hp i (by simp [hi])) (Or.inl hspec)
      simp [awesomeItems, Item.text, hspec, storedList, optionsOf]
      rw [hspec] at this
      simp [this]
    | conj a =>
      have h1 : (conjText a).head? ≠ some '@' ∧ ∀ c ∈ a, c.Ok o toSize vars := (hp (.conj a) (by simp)).2
      have := ih (fun i hi => hp i (by simp [hi])) (by simpa [optionsOf] using ho)
      simp only [List.map_cons, awesomeItems, Item.text]
      rw [if_neg h1.1, andCtor_text a h1.2, this]
      rfl

/-- **C37** A list of items is read as written: the options go to the specification object in order, and the
predicate is true exactly when one of its conjunctions has all its comparisons true.  It is never undefined when
the sides have values. -/
theorem predicate_spec {V : Type} [LinearOrder V] (o : Ops V) (ttos : V → List Char) (toSize : V → Nat)
    (vars : List (List Char × V)) (hv : VarsOk o ttos vars) (hasSpec : Bool) (p : List Item)
    (hp : ∀ i ∈ p, i.Ok o toSize vars) (ho : hasSpec = true ∨ optionsOf p = []) (fuel : Nat)
    (hf : (listText p).length < fuel) :
    ∃ terms t, awesomeCtor hasSpec (listText p) [','] ['&'] = some (terms, optionsOf p) ∧
      awesomeTrue o ttos toSize fuel vars terms = some t ∧ (t = true ↔ ListHolds o toSize vars p) := by
  have hne : ∀ i ∈ p, i.text ≠ [] ∧ ∀ x ∈ i.text, x ∉ [','] := by
    intro i hi
    cases i with
    | option s =>
      refine ⟨by simp [Item.text], ?_⟩
      intro x hx hx'
      simp only [List.mem_singleton] at hx'
      subst hx'
      simp only [Item.text, List.mem_cons] at hx
      rcases hx with hx | hx
      · simp at hx
      · exact hp _ hi hx
    | conj a =>
      obtain ⟨ha, _, hc⟩ : a ≠ [] ∧ (conjText a).head? ≠ some '@' ∧ ∀ c ∈ a, c.Ok o toSize vars := hp _ hi
      constructor
      · apply inter_ne_nil
        · simpa using ha
        · intro t ht
          obtain ⟨c, hc', rfl⟩ := List.mem_map.1 ht
          exact (comparison_text_ok (hc c hc')).1
      · intro x hx hx'
        simp only [List.mem_singleton] at hx'
        subst hx'
        rcases mem_inter '&' _ _ hx with h | ⟨t, ht, h⟩
        · simp at h
        · obtain ⟨c, hc', rfl⟩ := List.mem_map.1 ht
          exact ((comparison_text_ok (hc c hc')).2 _ h).1 rfl
  have hctor : awesomeCtor hasSpec (listText p) [','] ['&'] = some (storedList p, optionsOf p) := by
    by_cases hpn : p = []
    · subst hpn; rfl
    · unfold awesomeCtor
      rw [if_neg]
      · unfold listText
        rw [split_join _ [','] [','] (by simp) (by simp) ?_]
        · exact items_text hasSpec p hp ho
        · intro t ht
          obtain ⟨i, hi, rfl⟩ := List.mem_map.1 ht
          exact hne i hi
      · apply inter_ne_nil
        · simpa using hpn
        · intro t ht
          obtain ⟨i, hi, rfl⟩ := List.mem_map.1 ht
          exact (hne i hi).1
  have hlen : ∀ a, Item.conj a ∈ p → ∀ c ∈ a, c.text.length < fuel := by
    intro a ha c hc
    have h1 := part_length ',' (p.map Item.text) _ (List.mem_map_of_mem ha)
    have h2 := part_length '&' (a.map Comparison.text) _ (List.mem_map_of_mem hc)
    unfold listText at hf
    change (conjText a).length ≤ _ at h1
    unfold conjText at h1
    omega
  suffices h : ∃ t, awesomeTrue o ttos toSize fuel vars (storedList p) = some t ∧ (t = true ↔ ListHolds o toSize vars p) by
    obtain ⟨t, h1, h2⟩ := h
    exact ⟨_, t, hctor, h1, h2⟩
  clear hctor hf hne ho
  induction p with
  | nil => exact ⟨false, rfl, by simp [ListHolds]⟩
  | cons i p ih =>
    obtain ⟨t', h3, h4⟩ := ih (fun i hi => hp i (by simp [hi])) (fun a ha => hlen a (by simp [ha]))
    cases i with
    | option s =>
      refine ⟨t', h3, ?_⟩
      rw [h4]; simp [ListHolds]
    | conj a =>
      have ha : ∀ c ∈ a, c.Ok o toSize vars := (hp (.conj a) (by simp)).2.2
      obtain ⟨t, h1, h2⟩ := andTrue_spec o ttos toSize vars hv fuel a ha (hlen a (by simp))
      simp only [storedList, awesomeTrue, h1, bind, Option.bind_some]
      cases t with
      | true =>
        refine ⟨true, rfl, ?_⟩
        simp only [true_iff]
        exact ⟨a, by simp, h2.1 rfl⟩
      | false =>
        refine ⟨t', h3, ?_⟩
        rw [h4]
        unfold ListHolds
        simp only [List.mem_cons, Item.conj.injEq]
        constructor
        · rintro ⟨b, hb, h⟩; exact ⟨b, Or.inr hb, h⟩
        · rintro ⟨b, rfl | hb, h⟩
          · exact absurd (h2.2 h) (by simp)
          · exact ⟨b, hb, h⟩

/-- **C37** The constructor of a single comparison accepts exactly the strings `lhs op rhs` with both sides
present; `op` is the leftmost operator of the string, and the longest at its place. -/
theorem simple_ctor_spec (pred l o r : List Char) : Simple.ctor pred = some ⟨l, o, r⟩ ↔
    pred = l ++ o ++ r ∧ l ≠ [] ∧ r ≠ [] ∧ (∃ rel : Rel, o = rel.text) ∧
    (∀ j, j < l.length → ∀ rel : Rel, ¬ rel.text <+: pred.drop j) ∧
    ∀ rel : Rel, rel.text <+: pred.drop l.length → rel.text.length ≤ o.length := by
  have hops : ∀ q, q ∈ ops ↔ ∃ rel : Rel, q = rel.text := by
    intro q
    constructor
    · intro h
      simp only [ops, List.mem_cons, List.not_mem_nil, or_false] at h
      rcases h with h | h | h | h | h | h | h
      exacts [⟨.eq, h⟩, ⟨.ne, h⟩, ⟨.le, h⟩, ⟨.ge, h⟩, ⟨.gt, h⟩, ⟨.lt, h⟩, ⟨.div, h⟩]
    · rintro ⟨rel, rfl⟩; exact rel_text_mem rel
  rw [ctor_iff]
  simp only [hops]
  constructor
  · rintro ⟨h1, h2, h3, h4, h5, h6⟩
    exact ⟨h1, h2, h3, h4, fun j hj rel => h5 j hj _ ⟨rel, rfl⟩, fun rel => h6 _ ⟨rel, rfl⟩⟩
  · rintro ⟨h1, h2, h3, h4, h5, h6⟩
    refine ⟨h1, h2, h3, h4, ?_, ?_⟩
    · rintro j hj _ ⟨rel, rfl⟩; exact h5 j hj rel
    · rintro _ ⟨rel, rfl⟩; exact h6 rel

/-! ## Integer variables -/

theorem decimal_chars (v : Int) : decimal v ≠ [] ∧ ∀ c ∈ decimal v, c = '-' ∨ isDigit c = true := by
  have hne : Nat.toDigits 10 v.natAbs ≠ [] := by
    intro h
    have := Nat.length_toDigits_pos (b := 10) (n := v.natAbs)
    rw [h] at this; simp at this
  unfold decimal
  split_ifs
  · refine ⟨by simp, ?_⟩
    intro c hc
    rcases List.mem_cons.1 hc with h | h
    · exact Or.inl h
    · exact Or.inr (isDigit_toDigits _ c h)
  · exact ⟨hne, fun c hc => Or.inr (isDigit_toDigits _ c hc)⟩

/-- **C37** Integer values meet the conditions on the variables as soon as every name has a character that is
neither a digit nor a minus sign. -/
theorem int_vars_ok (o : Ops Int) (hp : ∀ v, o.parse (String.ofList (decimal v)) = some v)
    (vars : List (List Char × Int)) (hn : ∀ p ∈ vars, ':' ∉ p.1 ∧ ∃ c ∈ p.1, c ≠ '-' ∧ isDigit c = false) :
    VarsOk o decimal vars := by
  refine ⟨?_, ?_, ?_⟩
  · intro p hp'
    obtain ⟨h1, c, hc, _⟩ := hn p hp'
    exact ⟨by rintro h; rw [h] at hc; simp at hc, h1⟩
  · intro p _
    obtain ⟨h1, h2⟩ := decimal_chars p.2
    refine ⟨h1, ?_, ?_, hp p.2⟩
    · intro h
      rcases h2 _ h with h | h
      · simp at h
      · revert h; decide
    · unfold operands
      have hl : (String.ofList (decimal p.2)).toList = decimal p.2 := String.toList_ofList
      split
      case h_2 h =>
        -- a lone minus sign is not a number
        exfalso
        rw [h] at hl
        unfold decimal at hl
        split_ifs at hl
        · simp at hl
        · have := isDigit_toDigits p.2.natAbs '-' (by rw [← hl]; simp)
          revert this; decide
      case h_11 => rfl
      all_goals
        rename_i h
        exfalso
        rw [h] at hl
        rw [← hl] at h2
        revert h2; decide
  · intro p hp' q _ hin
    obtain ⟨_, c, hc, h1, h2⟩ := hn p hp'
    rcases (decimal_chars q.2).2 c (hin.subset hc) with h | h
    · exact h1 h
    · rw [h2] at h; cases h

/-! ## What goes wrong otherwise -/

theorem find_isSome (s pat : List Char) (h : pat <:+: s) : ∃ i, find s pat 0 = some i := by
  cases hf : find s pat 0 with
  | some i => exact ⟨i, rfl⟩
  | none =>
    obtain ⟨a, b, rfl⟩ := h
    have := find_none hf a.length (by omega) (by simp)
    exact absurd (by rw [List.append_assoc, List.drop_left]; exact List.prefix_append _ _) this

/-- **C37** A variable whose name occurs in its own printed value is substituted for ever: the evaluation never
returns.  This happens with real values and a variable called `e`, since `1e+20` contains an `e`. -/
theorem own_name_loops_fails (name val : List Char) (hv : name <:+: val) (fuel : Nat) :
    ∀ hs : List Char, name <:+: hs → replaceVariable name val fuel hs = none := by
  induction fuel with
  | zero => intro hs _; rfl
  | succ fuel ih =>
    intro hs h
    obtain ⟨i, hi⟩ := find_isSome hs name h
    rw [replaceVariable, hi]
    simp only [bind]
    cases (if i = 0 then some [] else substr hs 0 i) with
    | none => rfl
    | some p1 =>
      simp only [Option.bind_some]
      cases substr hs (i + name.length) (hs.length - name.length - i) with
      | none => rfl
      | some p2 =>
        simp only [Option.bind_some]
        apply ih
        rw [List.append_assoc]
        exact hv.trans ⟨p1, p2, by simp⟩

example : "e".toList <:+: "1e+20".toList := ⟨['1'], "+20".toList, rfl⟩

/-- **C37** Names are replaced anywhere, also inside operators: with a variable `i`, a sine is no longer one. -/
theorem name_inside_operator_fails :
    replaceVariables decimal 100 [(['i'], 2)] "sin:i".toList = some "s2n:2".toList := by decide +kernel

/-! ## A concrete case -/

/-- Integer arithmetic, reading decimals up to 99. -/
def intOps : Ops Int :=
  { Ast.intOps with parse := fun s => match s.toList with
      | '-' :: t => some (- (Nat.ofDigitChars 10 t 0 : Int))
      | t => some (Nat.ofDigitChars 10 t 0 : Int) }

theorem intOps_parse (v : Int) : intOps.parse (String.ofList (decimal v)) = some v := by
  unfold intOps
  simp only [String.toList_ofList]
  unfold decimal
  split_ifs with h
  · simp only [Nat.ofDigitChars_ten_toDigits]; congr 1; omega
  · split
    · rename_i t ht
      have := isDigit_toDigits v.natAbs '-' (by rw [ht]; simp)
      exact absurd this (by decide)
    · rw [Nat.ofDigitChars_ten_toDigits]; congr 1; omega

/-- `l%%2&l!=0,l>=7` -/
def sample : List Item :=
  [.conj [⟨.node "l" [], .div, .node "2" []⟩, ⟨.node "l" [], .ne, .node "0" []⟩],
   .conj [⟨.node "l" [], .ge, .node "+" [.node "3" [], .node "4" []]⟩]]

theorem sample_text : listText sample = "l%%2&l!=0,l>=+:3:4".toList := by
  simp [listText, sample, Item.text, conjText, Comparison.text, exprText, Rel.text, Expr.size_node, Expr.levels,
    Expr.code, Expr.nextLevel, Expr.args, List.intercalate]

example : VarsOk intOps decimal [(['l'], 6)] :=
  int_vars_ok _ intOps_parse _ (by
    intro p hp; simp at hp; subst hp; exact ⟨by decide, 'l', by decide, by decide, by decide⟩)

theorem leaf_means (vars : List (List Char × Int)) (c : String) (v : Int) (h0 : operands c = 0)
    (h : lookup intOps.parse vars c = some v) : Means intOps vars (.node c []) v :=
  .mk _ _ [] _ rfl (by simp) (.number _ _ h0 h)

theorem sample_ok : ∀ i ∈ sample, i.Ok intOps Int.toNat [(['l'], 6)] := by
  have leaf : ∀ c : String, operands c = 0 → (Expr.node c []).WF := fun c h => .mk c [] (by simp [h]) (by simp)
  have m : ∀ (c : String) (v : Int), operands c = 0 → lookup intOps.parse [(['l'], 6)] c = some v →
    Means intOps [(['l'], 6)] (.node c []) v := fun c v => leaf_means _ c v
  have hsym : ∀ s ∈ ["l", "2", "0", "+", "3", "4"], SymbolOk s ∧ NamesOk [['l']] s := by
    intro s hs
    simp only [List.mem_cons, List.not_mem_nil, or_false] at hs
    unfold SymbolOk NamesOk
    rcases hs with rfl | rfl | rfl | rfl | rfl | rfl <;> decide
  have hl : ∀ c : String, symbols (.node c []) = [c] := fun c => by
    simp [symbols, Expr.size_node, Expr.levels, Expr.code]
  have hs2 : symbols (.node "+" [.node "3" [], .node "4" []]) = ["+", "3", "4"] := by
    simp [symbols, Expr.size_node, Expr.levels, Expr.code, Expr.nextLevel, Expr.args]
  have l6 := m "l" 6 rfl rfl
  have n2 := m "2" 2 rfl rfl
  have n0 := m "0" 0 rfl rfl
  have n3 := m "3" 3 rfl rfl
  have n4 := m "4" 4 rfl rfl
  intro i hi
  simp only [sample, List.mem_cons, List.not_mem_nil, or_false] at hi
  rcases hi with rfl | rfl
  · refine ⟨by simp, by
      simp [conjText, Comparison.text, exprText, Rel.text, Expr.size_node, Expr.levels,
        Expr.code, Expr.nextLevel, Expr.args, List.intercalate], ?_⟩
    intro c hc
    simp only [List.mem_cons, List.not_mem_nil, or_false] at hc
    rcases hc with rfl | rfl
    · refine ⟨leaf _ rfl, leaf _ rfl, ?_, ?_, ⟨6, l6⟩, ⟨2, n2, fun _ => by decide⟩⟩
      all_goals
        intro s hs; simp only [hl, List.mem_singleton] at hs; subst hs; exact hsym _ (by simp)
    · refine ⟨leaf _ rfl, leaf _ rfl, ?_, ?_, ⟨6, l6⟩, ⟨0, n0, fun h => by cases h⟩⟩
      all_goals
        intro s hs; simp only [hl, List.mem_singleton] at hs; subst hs; exact hsym _ (by simp)
  · refine ⟨by simp, by
      simp [conjText, Comparison.text, exprText, Rel.text, Expr.size_node, Expr.levels,
        Expr.code, Expr.nextLevel, Expr.args, List.intercalate], ?_⟩
    intro c hc
    simp only [List.mem_cons, List.not_mem_nil, or_false] at hc
    subst hc
    refine ⟨leaf _ rfl, .mk _ _ rfl (by simp [leaf "3" rfl, leaf "4" rfl]), ?_, ?_, ⟨6, l6⟩, ⟨7, ?_, fun h => by cases h⟩⟩
    · intro s hs; simp only [hl, List.mem_singleton] at hs; subst hs; exact hsym _ (by simp)
    · intro s hs
      simp only [hs2] at hs
      exact hsym s (by simp at hs ⊢; tauto)
    · refine .mk _ _ [3, 4] _ rfl ?_ (.add _ _)
      intro i h1 h2
      match i with
      | 0 => exact n3
      | 1 => exact n4

/-- The values of `l` for which the sample is true, from the model. -/
example : (awesomeCtor false "l%%2&l!=0,l>=+:3:4".toList [','] ['&']).bind (fun r =>
    (List.range 10).mapM fun v : Nat => awesomeTrue intOps decimal Int.toNat 100 [(['l'], (v : Int))] r.1) =
    some [false, false, true, false, true, false, true, true, true, true] := by decide +kernel

end Verif.Predicate
