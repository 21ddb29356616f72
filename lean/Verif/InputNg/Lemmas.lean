import Verif.InputNg.Spec
import Verif.InputNg.PropsOrder

/-! # Maps of repeated labels -/

namespace Verif.InputNg

open Verif.Str Verif.StrUtil

/-- The key of occurrence `x` of label `r`. -/
def keyOf (r : Str) (x : Nat) : Str := if x = 0 then r else r ++ '@' :: ttos x

theorem mysplit_mk (r : Str) (hr : '@' ∉ r) (x : Nat) (hx : x < 2 ^ 31) : mysplit (keyOf r x) = .ok (r, x) := by
  have h1 : r.takeWhile (· ≠ '@') = r := by
    have := List.takeWhile_append_of_pos (p := (· ≠ '@')) (l₁ := r) (l₂ := []) (by
      intro a ha; simp; intro e; exact hr (e ▸ ha))
    simpa using this
  have h2 : ∀ l : Str, (r ++ l).takeWhile (· ≠ '@') = r ++ l.takeWhile (· ≠ '@') := fun l =>
    List.takeWhile_append_of_pos (by intro a ha; simp; intro e; exact hr (e ▸ ha))
  have h3 : ∀ l : Str, (r ++ l).dropWhile (· ≠ '@') = l.dropWhile (· ≠ '@') := fun l =>
    List.dropWhile_append_of_pos (by intro a ha; simp; intro e; exact hr (e ▸ ha))
  unfold keyOf
  split
  · rename_i h0
    have h5 : r.dropWhile (· ≠ '@') = [] := by have := h3 []; simpa using this
    unfold mysplit splitAt'
    simp only [h1, h5, h0]
    rfl
  · have h4 : (Nat.toDigits 10 x).filter (· ≠ '@') = Nat.toDigits 10 x := by
      rw [List.filter_eq_self]
      intro c hc
      have := isDigit_toDigits x c hc
      simp only [ne_eq, decide_not, Bool.not_eq_eq_eq_not, Bool.not_true, decide_eq_false_iff_not]
      rintro rfl; revert this; decide
    unfold mysplit splitAt'
    rw [h2, h3]
    have h6 : ((('@' :: ttos x).dropWhile (· ≠ '@')).filter (· ≠ '@')) = Nat.toDigits 10 x := by
      simpa [ttos] using h4
    simp only [h6]
    rw [if_neg (by intro e; have := Labels.toDigits_pos x; rw [e] at this; simp at this),
      Labels.atoi_digits x (by omega)]
    simp only [ofNested, bind, Except.bind, pure, Except.pure]
    congr 2
    · simp
    · rw [Int.emod_eq_of_lt (by omega) (by omega)]; rfl

theorem root_mk (r : Str) (hr : '@' ∉ r) (x : Nat) : findRootLabel (keyOf r x) = r := by
  have h2 : ∀ l : Str, (r ++ l).takeWhile (· ≠ '@') = r ++ l.takeWhile (· ≠ '@') := fun l =>
    List.takeWhile_append_of_pos (by intro a ha; simp; intro e; exact hr (e ▸ ha))
  unfold keyOf findRootLabel
  split
  · have := h2 []; simpa using this
  · rw [h2]; simp

/-- The rank of a key. -/
def K (x : Str) : Nat ×ₗ List Char ×ₗ Nat :=
  match mysplit x with
  | .ok p => rank x p.2
  | .error _ => rank x 0

open Classical in
theorem less_K (x y : Str) (hx : Comparable x) (hy : Comparable y) : less x y = .ok (decide (K x < K y)) := by
  obtain ⟨p, hp⟩ := hx
  obtain ⟨q, hq⟩ := hy
  rw [less_rank x y p q hp hq]
  simp only [K, hp, hq]

theorem comparable_mk (r : Str) (hr : '@' ∉ r) (x : Nat) (hx : x < 2 ^ 31) : Comparable (keyOf r x) :=
  ⟨_, mysplit_mk r hr x hx⟩

theorem K_mk_lt (r : Str) (hr : '@' ∉ r) (x y : Nat) (hx : x < 2 ^ 31) (hy : y < 2 ^ 31) :
    K (keyOf r x) < K (keyOf r y) ↔ x < y := by
  simp only [K, mysplit_mk r hr x hx, mysplit_mk r hr y hy, rank]
  by_cases h1 : x = 0 <;> by_cases h2 : y = 0
  · simp [h1, h2]
  · simp only [h1, h2, if_true, if_false, Prod.Lex.toLex_lt_toLex]; simp; omega
  · simp only [h1, h2, if_true, if_false, Prod.Lex.toLex_lt_toLex]; simp
  · simp only [h1, h2, if_false, Prod.Lex.toLex_lt_toLex, root_mk r hr]; simp

theorem K_mk_inj (r r' : Str) (hr : '@' ∉ r) (hr' : '@' ∉ r') (x y : Nat) (hx : x < 2 ^ 31) (hy : y < 2 ^ 31)
    (h : K (keyOf r x) = K (keyOf r' y)) : r = r' ∧ x = y := by
  simp only [K, mysplit_mk r hr x hx, mysplit_mk r' hr' y hy, rank] at h
  by_cases h1 : x = 0 <;> by_cases h2 : y = 0
  · simp only [h1, h2, if_true] at h
    have := congrArg (fun z => (ofLex (ofLex z).2).1) h
    simp [keyOf] at this
    exact ⟨this, by omega⟩
  · simp only [h1, h2, if_true, if_false] at h
    have := congrArg (fun z => (ofLex z).1) h
    simp at this
  · simp only [h1, h2, if_true, if_false] at h
    have := congrArg (fun z => (ofLex z).1) h
    simp at this
  · simp only [h1, h2, if_false, root_mk r hr, root_mk r' hr'] at h
    have e1 := congrArg (fun z => (ofLex (ofLex z).2).1) h
    have e2 := congrArg (fun z => (ofLex (ofLex z).2).2) h
    simp at e1 e2
    exact ⟨e1, e2⟩

theorem mapSet_new {V : Type} (k : Str) (v : V) (m : SMap V) (hk : Comparable k)
    (hm : ∀ e ∈ m, Comparable e.1 ∧ K e.1 ≠ K k) (hs : m.Pairwise fun a b => K a.1 < K b.1) :
    ∃ A B, m = A ++ B ∧ mapSet k v m = .ok (A ++ (k, v) :: B) ∧ (∀ a ∈ A, K a.1 < K k) ∧ ∀ b ∈ B, K k < K b.1 := by
  classical
  induction m with
  | nil => exact ⟨[], [], rfl, rfl, by simp, by simp⟩
  | cons e m ih =>
    obtain ⟨k', v'⟩ := e
    have he := hm (k', v') (by simp)
    rw [List.pairwise_cons] at hs
    unfold mapSet
    rw [less_K _ _ he.1 hk, less_K _ _ hk he.1]
    simp only [bind, Except.bind]
    by_cases hlt : K k' < K k
    · obtain ⟨A, B, h1, h2, h3, h4⟩ := ih (fun e he => hm e (List.mem_cons_of_mem _ he)) hs.2
      refine ⟨(k', v') :: A, B, by rw [h1]; rfl, ?_, ?_, h4⟩
      · rw [if_pos (by simpa using hlt), h2]; rfl
      · intro a ha
        rcases List.mem_cons.1 ha with rfl | ha
        · exact hlt
        · exact h3 a ha
    · have hgt : K k < K k' := lt_of_le_of_ne (not_lt.1 hlt) (fun e => he.2 e.symm)
      refine ⟨[], (k', v') :: m, rfl, ?_, by simp, ?_⟩
      · rw [if_neg (by simpa using hlt), if_pos (by simpa using hgt)]; rfl
      · intro b hb
        rcases List.mem_cons.1 hb with rfl | hb
        · exact hgt
        · exact lt_trans hgt (hs.1 b hb)

/-- The map holds the assignments `L`. -/
structure RepMap {V : Type} (m : SMap V) (L : List (Str × V)) : Prop where
  sorted : m.Pairwise fun a b => K a.1 < K b.1
  keys : ∀ r, '@' ∉ r → m.filter (fun e => decide (findRootLabel e.1 = r)) =
    (occ L r).mapIdx fun i v => (keyOf r i, v)

theorem occ_length_le {V : Type} (L : List (Str × V)) (r : Str) : (occ L r).length ≤ L.length := by
  unfold occ
  rw [List.length_map]
  exact List.length_filter_le _ _

theorem RepMap.mem {V : Type} {m : SMap V} {L : List (Str × V)} (h : RepMap m L) (e : Str × V) (he : e ∈ m) :
    ∃ i, i < (occ L (findRootLabel e.1)).length ∧ e.1 = keyOf (findRootLabel e.1) i := by
  have hr := root_no_mark e.1
  have h1 : e ∈ m.filter (fun e' => decide (findRootLabel e'.1 = findRootLabel e.1)) := by
    rw [List.mem_filter]; exact ⟨he, by simp⟩
  rw [h.keys _ hr, List.mem_mapIdx] at h1
  obtain ⟨i, hi, h2⟩ := h1
  exact ⟨i, hi, by rw [← h2, root_mk _ hr]⟩

theorem RepMap.count {V : Type} {m : SMap V} {L : List (Str × V)} (h : RepMap m L) (r : Str) (hr : '@' ∉ r) :
    m.countP (fun e => decide (r = findRootLabel e.1)) = (occ L r).length := by
  rw [List.countP_eq_length_filter]
  have : (fun e : Str × V => decide (r = findRootLabel e.1)) = fun e => decide (findRootLabel e.1 = r) := by
    funext e; rw [decide_eq_decide]; exact eq_comm
  rw [this, h.keys r hr]; simp

theorem occ_snoc_self {V : Type} (L : List (Str × V)) (r : Str) (v : V) : occ (L ++ [(r, v)]) r = occ L r ++ [v] := by
  simp [occ]

theorem occ_snoc_ne {V : Type} (L : List (Str × V)) (r r' : Str) (v : V) (h : r ≠ r') :
    occ (L ++ [(r, v)]) r' = occ L r' := by
  simp [occ, h]

theorem root_self (r : Str) (hr : '@' ∉ r) : findRootLabel r = r := root_mk r hr 0

theorem insert_spec {V : Type} (m : SMap V) (L : List (Str × V)) (h : RepMap m L) (r : Str) (hr : '@' ∉ r) (v : V)
    (hL : L.length < 2 ^ 31) (rem : List Str) :
    ∃ m', mapSet (adjLabel r m rem).1 v m = .ok m' ∧ RepMap m' (L ++ [(r, v)]) ∧
      (adjLabel r m rem).2 = if occ L r = [] then rem else rem ++ [r] := by
  have hcount := h.count r hr
  have hn := occ_length_le L r
  have hadj : adjLabel r m rem = (keyOf r (occ L r).length, if occ L r = [] then rem else rem ++ [r]) := by
    unfold adjLabel findLastOccurrence
    simp only [root_self r hr]
    rw [hcount]
    by_cases h0 : occ L r = []
    · rw [if_pos (by simp [h0]), if_pos h0]; simp [keyOf, h0]
    · have : 0 < (occ L r).length := List.length_pos_iff.2 h0
      rw [if_neg (by omega), if_neg h0]
      rw [show (((occ L r).length : Int) - 1 + 1).toNat = (occ L r).length by omega]
      unfold keyOf
      rw [if_neg (by omega)]
  rw [hadj]
  have hmem : ∀ e ∈ m, Comparable e.1 ∧ K e.1 ≠ K (keyOf r (occ L r).length) := by
    intro e he
    obtain ⟨i, hi, hei⟩ := h.mem e he
    have hr' := root_no_mark e.1
    have := occ_length_le L (findRootLabel e.1)
    refine ⟨by rw [hei]; exact comparable_mk _ hr' _ (by omega), ?_⟩
    intro hK
    rw [hei] at hK
    obtain ⟨e1, e2⟩ := K_mk_inj _ _ hr' hr _ _ (by omega) (by omega) hK
    rw [e1] at hi
    omega
  obtain ⟨A, B, h1, h2, h3, h4⟩ := mapSet_new (keyOf r (occ L r).length) v m (comparable_mk r hr _ (by omega)) hmem
    h.sorted
  refine ⟨_, h2, ⟨?_, ?_⟩, rfl⟩
  · have hs := h.sorted
    rw [h1, List.pairwise_append] at hs
    rw [List.pairwise_append, List.pairwise_cons]
    refine ⟨hs.1, ⟨h4, hs.2.1⟩, ?_⟩
    intro a ha b hb
    rcases List.mem_cons.1 hb with rfl | hb
    · exact h3 a ha
    · exact hs.2.2 a ha b hb
  · intro r' hr'
    have hk := h.keys r' hr'
    rw [h1, List.filter_append] at hk
    rw [List.filter_append, List.filter_cons]
    by_cases hrr : r = r'
    · subst hrr
      have hB : B.filter (fun e => decide (findRootLabel e.1 = r)) = [] := by
        rw [List.filter_eq_nil_iff]
        intro b hb hbr
        have hbm : b ∈ m := by rw [h1]; exact List.mem_append_right _ hb
        obtain ⟨i, hi, hbi⟩ := h.mem b hbm
        have hbr' : findRootLabel b.1 = r := by simpa using hbr
        rw [hbr'] at hi hbi
        have hlt := h4 b hb
        rw [hbi, K_mk_lt r hr _ _ (by omega) (by omega)] at hlt
        omega
      rw [hB, List.append_nil] at hk
      rw [if_pos (by simp [root_mk r hr]), hB, hk, occ_snoc_self, List.mapIdx_append]
      simp
    · rw [if_neg (by simp [root_mk r hr, hrr]), hk, occ_snoc_ne _ _ _ _ hrr]

end Verif.InputNg
