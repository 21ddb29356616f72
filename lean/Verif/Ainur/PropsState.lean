import Verif.Ainur.Spec

/-!
# C49: Ainur variables
-/

namespace Verif.Ainur

open Verif.Str Verif.StrUtil

theorem idx_none {s : State} {k : Str} (h : storageIndexByName s k = none) : ∀ a ∈ s.vars, a.key ≠ k := by
  unfold storageIndexByName at h
  rw [List.findIdx?_eq_none_iff] at h
  intro a ha
  simpa using h a ha

theorem idx_some {s : State} {k : Str} {x : Nat} (h : storageIndexByName s k = some x) :
    ∃ a, s.vars[x]? = some a ∧ a.key = k := by
  unfold storageIndexByName at h
  rw [List.findIdx?_eq_some_iff_getElem] at h
  obtain ⟨h1, h2, _⟩ := h
  exact ⟨s.vars[x], List.getElem?_eq_getElem h1, by simpa using h2⟩

/-- The state after the calls `h`, the newest first. -/
structure After (h : List Op) (s : State) : Prop where
  nodup : (s.vars.map (·.key)).Nodup
  len : s.vars.length = s.used.length
  ord : s.vars.length = (order h).length
  at_ : ∀ (i : Nat) (a : Var), s.vars[i]? = some a → ∃ d u, (order h)[i]? = some (a.key, d) ∧ valueOf h a.key = some a.value ∧
    s.used[i]? = some u ∧ (u = 0 ↔ Marked d ∧ ¬ wasRead h a.key)
  none_ : ∀ k : Str, (∀ a ∈ s.vars, a.key ≠ k) → valueOf h k = none

theorem after_init : After [] .init := by
  refine ⟨by simp [State.init], rfl, rfl, ?_, ?_⟩
  · intro i a h; simp [State.init] at h
  · intro k _; rfl

theorem wasRead_value {h : List Op} {k : Str} (hr : wasRead h k) : valueOf h k ≠ none := by
  induction h with
  | nil => exact absurd hr id
  | cons op h ih =>
    cases op with
    | declare d k' v =>
      have := ih hr
      simp only [valueOf]
      rw [if_neg (by simp [this])]
      exact this
    | assign k' v =>
      have := ih hr
      simp only [valueOf]
      split
      · simp
      · exact this
    | read k' =>
      rcases hr with ⟨rfl, hr⟩ | hr
      · simp only [valueOf]
        intro e
        simp [answer, e] at hr
      · exact ih hr

theorem After.key_inj {h : List Op} {s : State} (ha : After h s) {i j : Nat} {a b : Var} (hi : s.vars[i]? = some a)
    (hj : s.vars[j]? = some b) (e : a.key = b.key) : i = j := by
  obtain ⟨hi1, hi2⟩ := List.getElem?_eq_some_iff.1 hi
  obtain ⟨hj1, hj2⟩ := List.getElem?_eq_some_iff.1 hj
  have := (List.nodup_iff_injective_get.1 ha.nodup) (a₁ := ⟨i, by simpa using hi1⟩) (a₂ := ⟨j, by simpa using hj1⟩)
    (by simp [hi2, hj2, e])
  simpa using this

theorem valueFromFunction_plain (fs : Files) (funs : List Str) (v : Str) (h : v.head? ≠ some '(') :
    valueFromFunction fs funs v = .ok v := by
  unfold valueFromFunction getFunctionNameValue
  by_cases h1 : v.length < 4
  · simp [h1]
  · rw [if_neg h1, if_pos (Or.inl h)]
    simp

theorem convertString_plain (fs : Files) (funs : List Str) (v : Str) (h : v.head? ≠ some '(') :
    convertString fs funs v = .ok (strip v) := by
  unfold convertString strip
  rw [valueFromFunction_plain fs funs v h]
  simp only [bind, Except.bind, pure, Except.pure]
  split <;> rfl

/-- Values that are not calls of functions. -/
def Op.Plain : Op → Prop
  | .declare _ _ v => v.head? ≠ some '('
  | .assign _ v => v.head? ≠ some '('
  | .read _ => True

theorem valueOf_plain {h : List Op} (hp : ∀ op ∈ h, op.Plain) {k v : Str} (hv : valueOf h k = some v) :
    v.head? ≠ some '(' := by
  induction h with
  | nil => simp [valueOf] at hv
  | cons op h ih =>
    have hr := ih (fun o ho => hp o (by simp [ho]))
    have h0 := hp op (by simp)
    cases op with
    | declare d k' w =>
      simp only [valueOf] at hv
      split at hv
      · cases hv; exact h0
      · exact hr hv
    | assign k' w =>
      simp only [valueOf] at hv
      split at hv
      · cases hv; exact h0
      · exact hr hv
    | read k' => exact hr hv

theorem op_step (fs : Files) (h : List Op) (s : State) (ha : After h s) (op : Op) (hp : ∀ o ∈ op :: h, o.Plain) :
    ∃ s', op.run fs s = .ok (answer h op, s') ∧ After (op :: h) s' := by
  cases op with
  | declare d k v =>
    cases hx : storageIndexByName s k with
    | none =>
      have hno := idx_none hx
      have hv : valueOf h k = none := ha.none_ k hno
      have hnr : ¬ wasRead h k := fun e => wasRead_value e hv
      let u : Nat := if Marked d then 0 else 1
      let ty : Str := if Marked d then d.dropLast else d
      have hd : declare s d k v = .ok { s with vars := s.vars ++ [⟨k, v, ty, "NORMAL".toList⟩], used := s.used ++ [u] } := by
        unfold declare
        rw [hx]
        by_cases hm : d.length > 1 ∧ d.getLast? = some '!'
        · have : Marked d := hm
          simp only [if_pos hm, u, ty, if_pos this]
        · have : ¬ Marked d := hm
          simp only [if_neg hm, u, ty, if_neg this]
      refine ⟨{ s with vars := s.vars ++ [⟨k, v, ty, "NORMAL".toList⟩], used := s.used ++ [u] }, ?_, ?_⟩
      · simp only [Op.run, hd, answer, hv, if_pos]
      · refine ⟨?_, by simp [ha.len], by simp [order, hv, ha.ord], ?_, ?_⟩
        · rw [List.map_append, List.nodup_append]
          refine ⟨ha.nodup, by simp, ?_⟩
          intro a hma b hb
          obtain ⟨a', h1, rfl⟩ := List.mem_map.1 hma
          simp only [List.map_cons, List.map_nil, List.mem_singleton] at hb
          rw [hb]; exact hno a' h1
        · intro i a hi
          by_cases hlt : i < s.vars.length
          · simp only [List.getElem?_append_left hlt] at hi
            obtain ⟨d', u', h1, h2, h3, h4⟩ := ha.at_ i a hi
            have hne : a.key ≠ k := hno a (List.mem_of_getElem? hi)
            refine ⟨d', u', ?_, ?_, ?_, h4⟩
            · simp only [order, if_pos hv]
              rw [List.getElem?_append_left (by rw [← ha.ord]; exact hlt)]; exact h1
            · simp only [valueOf]
              rw [if_neg (by rintro ⟨e, _⟩; exact hne e.symm)]; exact h2
            · show (s.used ++ [u])[i]? = _
              rw [List.getElem?_append_left (by rw [← ha.len]; exact hlt)]; exact h3
          · have hi' : i = s.vars.length := by
              obtain ⟨h1, _⟩ := List.getElem?_eq_some_iff.1 hi
              simp at h1; omega
            subst hi'
            simp at hi
            subst hi
            refine ⟨d, u, ?_, ?_, ?_, ?_⟩
            · simp only [order, if_pos hv]; rw [ha.ord]; simp
            · simp [valueOf, hv]
            · show (s.used ++ [u])[_]? = _
              rw [ha.len]; simp
            · have : wasRead (.declare d k v :: h) k ↔ wasRead h k := Iff.rfl
              simp only [this, hnr, not_false_iff, and_true, u]
              by_cases hm : Marked d <;> simp [hm]
        · intro k' hk'
          have h1 : k ≠ k' := hk' ⟨k, v, ty, "NORMAL".toList⟩ (by simp)
          simp only [valueOf]
          rw [if_neg (by simp [h1])]
          exact ha.none_ k' (fun a hma => hk' a (by simp [hma]))
    | some x =>
      obtain ⟨a, h1, h2⟩ := idx_some hx
      obtain ⟨d', u, _, h3, _⟩ := ha.at_ x a h1
      rw [h2] at h3
      refine ⟨s, ?_, ?_⟩
      · simp [Op.run, declare, hx, throwOut, answer, h3]
      · have e1 : ∀ k', valueOf (.declare d k v :: h) k' = valueOf h k' := by
          intro k'
          simp only [valueOf]
          rw [if_neg]
          rintro ⟨rfl, e⟩
          rw [h3] at e; cases e
        have e2 : order (.declare d k v :: h) = order h := by simp [order, h3]
        exact ⟨ha.nodup, ha.len, by rw [e2]; exact ha.ord, fun i a hi => by rw [e2, e1]; exact ha.at_ i a hi,
          fun k' hk' => by rw [e1]; exact ha.none_ k' hk'⟩
  | assign k v =>
    cases hx : storageIndexByName s k with
    | none =>
      have hv : valueOf h k = none := ha.none_ k (idx_none hx)
      refine ⟨s, by simp [Op.run, assign, hx, throwOut, answer, hv], ?_⟩
      have e1 : ∀ k', valueOf (.assign k v :: h) k' = valueOf h k' := by
        intro k'
        simp only [valueOf]
        rw [if_neg]
        rintro ⟨rfl, e⟩
        exact e hv
      exact ⟨ha.nodup, ha.len, ha.ord, fun i a hi => by rw [e1]; exact ha.at_ i a hi,
          fun k' hk' => by rw [e1]; exact ha.none_ k' hk'⟩
    | some x =>
      obtain ⟨a, h1, h2⟩ := idx_some hx
      obtain ⟨d', u, h4, h3, h5⟩ := ha.at_ x a h1
      rw [h2] at h3
      refine ⟨_, by simp only [Op.run, assign, hx, answer, h3]; rw [if_neg (by simp)], ?_⟩
      have hkeys : (s.vars.modify x fun a => { a with value := v }).map (·.key) = s.vars.map (·.key) := by
        apply List.ext_getElem
        · simp
        · intro i h1 h2
          simp only [List.getElem_map, List.getElem_modify]
          split <;> rfl
      refine ⟨?_, by simpa using ha.len, by simpa [order] using ha.ord, ?_, ?_⟩
      · rw [hkeys]; exact ha.nodup
      · intro i b hi
        simp only [List.getElem?_modify] at hi
        by_cases hxi : x = i
        · subst hxi
          rw [h1] at hi
          simp only [if_true, Option.map_eq_map, Option.map_some, Option.some.injEq] at hi
          subst hi
          exact ⟨d', u, h4, by simp [valueOf, h2, h3], h5⟩
        · simp only [if_neg hxi, Option.map_eq_map, Option.map_id_fun', id_eq] at hi
          obtain ⟨d2, u2, g1, g2, g3, g4⟩ := ha.at_ i b hi
          refine ⟨d2, u2, g1, ?_, g3, g4⟩
          simp only [valueOf]
          rw [if_neg]
          · exact g2
          · rintro ⟨e, _⟩
            exact hxi (ha.key_inj h1 hi (h2.trans e))
      · intro k' hk'
        have hold : ∀ b ∈ s.vars, b.key ≠ k' := by
          intro b hb e
          have : k' ∈ (s.vars.modify x fun a => { a with value := v }).map (·.key) := by
            rw [hkeys]; exact List.mem_map.2 ⟨b, hb, e⟩
          obtain ⟨c, hc, hce⟩ := List.mem_map.1 this
          exact hk' c hc hce
        have hn := ha.none_ k' hold
        simp only [valueOf]
        rw [if_neg (by simp [hn])]
        exact hn
  | read k =>
    have e1 : ∀ k', valueOf (.read k :: h) k' = valueOf h k' := fun _ => rfl
    have e2 : order (.read k :: h) = order h := rfl
    have hsame : answer h (.read k) = .refused → After (.read k :: h) s := by
      intro href
      have e3 : ∀ k', wasRead (.read k :: h) k' ↔ wasRead h k' := by
        intro k'
        simp [wasRead, href]
      exact ⟨ha.nodup, ha.len, ha.ord, fun i a hi => by rw [e1, e2, e3]; exact ha.at_ i a hi, ha.none_⟩
    cases hx : storageIndexByName s k with
    | none =>
      have hv : valueOf h k = none := ha.none_ k (idx_none hx)
      have href : answer h (.read k) = .refused := by simp [answer, hv]
      exact ⟨s, by simp [Op.run, readValue, hx, throwOut, href], hsame href⟩
    | some x =>
      obtain ⟨a, h1, h2⟩ := idx_some hx
      obtain ⟨d', u, h4, h3, h5, h6⟩ := ha.at_ x a h1
      rw [h2] at h3
      by_cases hem : NoValue a.value
      · have href : answer h (.read k) = .refused := by simp [answer, h3, hem]
        have hem' : isEmptyValue a.value = true := by
          rcases hem with e | e <;> simp [isEmptyValue, e, zeroCharString]
        exact ⟨s, by simp [Op.run, readValue, hx, h1, hem', throwOut, href], hsame href⟩
      · have hem' : isEmptyValue a.value = false := by
          rw [Bool.eq_false_iff]
          intro e
          apply hem
          simpa [isEmptyValue, zeroCharString, NoValue] using e
        have hans : answer h (.read k) = .value (strip a.value) := by simp [answer, h3, hem]
        have hplain := valueOf_plain (fun o ho => hp o (by simp [ho])) h3
        refine ⟨{ s with used := s.used.modify x (· + 1) }, ?_, ?_⟩
        · simp [Op.run, readValue, hx, h1, hem', convertString_plain _ _ _ hplain, hans, bind, Except.bind, pure, Except.pure]
        · refine ⟨ha.nodup, by simpa using ha.len, ha.ord, ?_, ha.none_⟩
          intro i b hi
          obtain ⟨d2, u2, g1, g2, g3, g4⟩ := ha.at_ i b hi
          by_cases hxi : x = i
          · subst hxi
            rw [h1] at hi
            cases hi
            refine ⟨d2, u2 + 1, g1, g2, by simp [g3], ?_⟩
            simp only [Nat.add_eq_zero_iff, Nat.one_ne_zero, and_false, false_iff, not_and, not_not]
            intro _
            left
            exact ⟨h2.symm, by rw [hans]; simp⟩
          · refine ⟨d2, u2, g1, g2, by simp [List.getElem?_modify, hxi, g3], ?_⟩
            rw [g4]
            have : wasRead (.read k :: h) b.key ↔ wasRead h b.key := by
              simp only [wasRead, or_iff_right_iff_imp, and_imp]
              intro e _
              exact absurd (ha.key_inj h1 hi (h2.trans e)) hxi
            rw [this]

theorem ops_ok (fs : Files) (ops : List Op) (h : List Op) (s : State) (ha : After h s)
    (hp : ∀ o ∈ ops.reverse ++ h, o.Plain) :
    ∃ s', runOps fs s ops = .ok (answers h ops, s') ∧ After (ops.reverse ++ h) s' := by
  induction ops generalizing h s with
  | nil => exact ⟨s, rfl, ha⟩
  | cons op ops ih =>
    obtain ⟨s1, h1, h2⟩ := op_step fs h s ha op (fun o ho => hp o (by
      simp only [List.reverse_cons, List.append_assoc, List.mem_append, List.singleton_append]; exact .inr ho))
    obtain ⟨s2, h3, h4⟩ := ih (op :: h) s1 h2 (by simpa using hp)
    refine ⟨s2, ?_, by simpa using h4⟩
    simp only [runOps, h1, bind, Except.bind, h3, pure, Except.pure, answers]

theorem unused_ok (h : List Op) (s : State) (ha : After h s) : unused s = unusedOf h := by
  have key : (s.vars.zip s.used).map (fun e => (e.1.key, decide (e.2 = 0))) =
      (order h).map (fun e => (e.1, decide (Marked e.2 ∧ ¬ wasRead h e.1))) := by
    apply List.ext_getElem?
    intro i
    rw [List.getElem?_map, List.getElem?_map]
    cases hv : s.vars[i]? with
    | none =>
      have h1 := List.getElem?_eq_none_iff.1 hv
      have h2 : (s.vars.zip s.used)[i]? = none := List.getElem?_eq_none_iff.2 (by simp; omega)
      have h3 : (order h)[i]? = none := List.getElem?_eq_none_iff.2 (by rw [← ha.ord]; exact h1)
      rw [h2, h3]; rfl
    | some a =>
      obtain ⟨d, u, h1, h2, h3, h4⟩ := ha.at_ i a hv
      have h5 : (s.vars.zip s.used)[i]? = some (a, u) := List.getElem?_zip_eq_some.2 ⟨hv, h3⟩
      rw [h5, h1]
      simp only [Option.map_some, Option.some.injEq, Prod.mk.injEq, true_and, decide_eq_decide]
      exact h4
  have e1 : unused s = (((s.vars.zip s.used).map (fun e => (e.1.key, decide (e.2 = 0)))).filter (·.2)).map (·.1) := by
    rw [List.filter_map, List.map_map]; rfl
  have e2 : unusedOf h = (((order h).map (fun e => (e.1, decide (Marked e.2 ∧ ¬ wasRead h e.1)))).filter (·.2)).map (·.1) := by
    rw [List.filter_map, List.map_map]; rfl
  rw [e1, e2, key]

theorem exported_ok (h : List Op) (s : State) (ha : After h s) : setMap s = exportedOf h := by
  have key : (s.vars.zip s.used).map (fun e => ((e.1.key, e.1.value), ! decide (e.2 = 0))) =
      (order h).map (fun e => ((e.1, (valueOf h e.1).getD []), ! decide (Marked e.2 ∧ ¬ wasRead h e.1))) := by
    apply List.ext_getElem?
    intro i
    rw [List.getElem?_map, List.getElem?_map]
    cases hv : s.vars[i]? with
    | none =>
      have h1 := List.getElem?_eq_none_iff.1 hv
      have h2 : (s.vars.zip s.used)[i]? = none := List.getElem?_eq_none_iff.2 (by simp; omega)
      have h3 : (order h)[i]? = none := List.getElem?_eq_none_iff.2 (by rw [← ha.ord]; exact h1)
      rw [h2, h3]; rfl
    | some a =>
      obtain ⟨d, u, h1, h2, h3, h4⟩ := ha.at_ i a hv
      have h5 : (s.vars.zip s.used)[i]? = some (a, u) := List.getElem?_zip_eq_some.2 ⟨hv, h3⟩
      rw [h5, h1]
      simp only [Option.map_some, h2, Option.getD_some, decide_eq_decide.2 h4]
  have e1 : setMap s = (((s.vars.zip s.used).map (fun e => ((e.1.key, e.1.value), ! decide (e.2 = 0)))).filter (·.2)).map (·.1) := by
    rw [List.filter_map, List.map_map]
    unfold setMap
    congr 2
    funext e
    simp
  have e2 : exportedOf h = (((order h).map (fun e => ((e.1, (valueOf h e.1).getD []), ! decide (Marked e.2 ∧ ¬ wasRead h e.1)))).filter (·.2)).map (·.1) := by
    rw [List.filter_map, List.map_map]; rfl
  rw [e1, e2, key]

/-! ## Properties -/

/-- **C49** Every sequence of declarations, assignments and reads is answered as the specification says, and the
variables reported as unused, and those handed on with their values, are the ones the specification says, for values that are not calls of functions. -/
theorem history_spec (fs : Files) (ops : List Op) (hp : ∀ o ∈ ops, o.Plain) :
    ∃ s, runOps fs .init ops = .ok (answers [] ops, s) ∧ unused s = unusedOf ops.reverse ∧
      setMap s = exportedOf ops.reverse := by
  obtain ⟨s, h1, h2⟩ := ops_ok fs ops [] .init after_init (by simpa using hp)
  exact ⟨s, h1, unused_ok _ _ (by simpa using h2), exported_ok _ _ (by simpa using h2)⟩

/-- **C49** The value of a declared variable is the last one assigned to it. -/
theorem last_assigned (h : List Op) (k v : Str) (later : List Op) (hd : valueOf h k ≠ none)
    (hl : ∀ op ∈ later, ∀ w, op ≠ .assign k w) : valueOf (later ++ .assign k v :: h) k = some v := by
  induction later with
  | nil => simp [valueOf, hd]
  | cons op later ih =>
    have := ih (fun o ho => hl o (by simp [ho]))
    cases op with
    | declare d k' w => simp [valueOf, this]
    | assign k' w =>
      have hne : k' ≠ k := by
        rintro rfl
        exact hl (.assign k' w) (by simp) w rfl
      simp [valueOf, this, hne]
    | read k' => exact this

/-- **C49** Assigning to one variable does not change another. -/
theorem assign_other (h : List Op) (k k' v : Str) (hne : k' ≠ k) : valueOf (.assign k' v :: h) k = valueOf h k := by
  simp [valueOf, hne]

/-- A history. -/
def ops1 : List Op :=
  [.declare "string!".toList "A".toList "x".toList, .assign "B".toList "2".toList,
   .declare "integer".toList "B".toList ['\x00'], .read "B".toList, .assign "B".toList "2".toList,
   .declare "string!".toList "C".toList "\"say\"".toList, .assign "B".toList "3".toList, .read "C".toList,
   .declare "real".toList "A".toList "7".toList, .read "B".toList]

example : ∀ o ∈ ops1, o.Plain := by
  intro o ho
  simp only [ops1, List.mem_cons, List.not_mem_nil, or_false] at ho
  rcases ho with rfl | rfl | rfl | rfl | rfl | rfl | rfl | rfl | rfl | rfl <;> simp [Op.Plain]

example : answers [] ops1 = [.done, .refused, .done, .refused, .done, .done, .done, .value "say".toList, .refused,
    .value "3".toList] ∧ unusedOf ops1.reverse = ["A".toList] ∧
    exportedOf ops1.reverse = [("B".toList, "3".toList), ("C".toList, "\"say\"".toList)] := by decide +kernel

end Verif.Ainur
