import Verif.Crs.LemmasPlus

namespace Verif.Crs

open Verif.Loop

variable {α σ : Type}

theorem getD_lt {β : Type} (l : List β) (d : β) {k : Nat} (h : k < l.length) : l.getD k d = l[k] := by
  rw [List.getD_eq_getElem?_getD, List.getElem?_eq_getElem h]; rfl

theorem push_loop (l : List (Nat × α)) {n c : Nat} {done : List (List (Nat × α))} {m : Crs α} (k : Nat)
    (hm : Built m n c (done ++ [[]])) :
    ∃ m', l.foldlM (fun (s : Crs α × Nat) q => some (push s.1 q.1 q.2, s.2 + 1)) (m, k) =
      some (m', k + l.length) ∧ Built m' n c (done ++ [l]) := by
  obtain ⟨⟨m', k'⟩, h1, h2, h3⟩ := foldlM_inv
    (fun d (s : Crs α × Nat) => Built s.1 n c (done ++ [d]) ∧ s.2 = k + d.length) l
    (fun (s : Crs α × Nat) q => some (push s.1 q.1 q.2, s.2 + 1)) (m, k) ⟨hm, by simp⟩ (by
      rintro d a r ⟨m, k'⟩ - ⟨g1, g2⟩
      refine ⟨_, rfl, g1.push _ _, ?_⟩
      simp only at g2
      simp [g2]; omega)
  simp only at h3
  subst h3
  exact ⟨m', h1, h2⟩

/-! ### `externalProduct`, second overload -/

theorem inv_loop {perm : List Nat} {n : Nat} (hp : perm.Perm (List.range n)) :
    ∃ inv, loopN n (fun i inv => do
      let p ← perm[i]?
      setAt inv p i) (List.replicate n 0) = some inv ∧
      ∀ k (h : k < perm.length), inv[perm[k]]? = some k := by
  have hl : perm.length = n := by simpa using hp.length_eq
  have hnd : perm.Nodup := hp.nodup_iff.2 List.nodup_range
  have hlt : ∀ k (h : k < perm.length), perm[k] < n := fun k h =>
    List.mem_range.1 (hp.mem_iff.1 (List.getElem_mem h))
  obtain ⟨inv, h1, h2, h3⟩ := loopN_inv
    (fun i (inv : List Nat) => inv.length = n ∧ ∀ k (h : k < perm.length), k < i → inv[perm[k]]? = some k) n
    (fun i inv => do
      let p ← perm[i]?
      setAt inv p i) (List.replicate n 0) ⟨by simp, by simp⟩ (by
      rintro i inv hi ⟨g1, g2⟩
      have hi' : i < perm.length := by omega
      refine ⟨inv.set perm[i] i, ?_, by simp [g1], ?_⟩
      · rw [List.getElem?_eq_getElem hi']
        exact setAt_some (by rw [g1]; exact hlt i hi')
      · intro k hk hki
        by_cases e : i = k
        · subst e; rw [List.getElem?_set_self (by rw [g1]; exact hlt i hi')]
        · rw [List.getElem?_set_ne (fun h => e ((hnd.getElem_inj_iff).1 h))]
          exact g2 k hk (by omega))
  exact ⟨inv, h1, fun k hk => h3 k hk (by omega)⟩

/-- The elements of a row of the external product. -/
def extRow [Mul α] (X Y : Crs α) (perm : List Nat) (n1 i1 i2 : Nat) (sg : α) : List (Nat × α) :=
  (row X i1).flatMap fun a => (row Y i2).map fun b => (perm.getD (a.1 + b.1 * n1) 0, a.2 * b.2 * sg)

theorem pair_inj {n1 a b a' b' : Nat} (ha : a < n1) (ha' : a' < n1) (h : a + b * n1 = a' + b' * n1) :
    a = a' ∧ b = b' := by
  have h1 : (a + b * n1) % n1 = a := by rw [Nat.add_mul_mod_self_right, Nat.mod_eq_of_lt ha]
  have h2 : (a' + b' * n1) % n1 = a' := by rw [Nat.add_mul_mod_self_right, Nat.mod_eq_of_lt ha']
  have h3 : a = a' := by rw [← h1, ← h2, h]
  subst h3
  refine ⟨rfl, ?_⟩
  have : b * n1 = b' * n1 := by omega
  exact Nat.eq_of_mul_eq_mul_right (by omega) this

theorem pair_lt {n1 n2 a b : Nat} (ha : a < n1) (hb : b < n2) : a + b * n1 < n1 * n2 := by
  have : (b + 1) * n1 ≤ n2 * n1 := Nat.mul_le_mul_right _ hb
  rw [Nat.mul_comm n1 n2]
  have e : (b + 1) * n1 = b * n1 + n1 := Nat.succ_mul b n1
  omega

theorem extRow_nodup [Mul α] {X Y : Crs α} (hX : Valid X) (hY : Valid Y) {perm : List Nat} {n1 n2 : Nat}
    (hn1 : X.ncol = n1) (hn2 : Y.ncol = n2) (hperm : perm.Perm (List.range (n1 * n2))) (i1 i2 : Nat)
    (h1 : i1 < X.nrow) (h2 : i2 < Y.nrow) (sg : α) :
    ((extRow X Y perm n1 i1 i2 sg).map fun p => p.1).Nodup := by
  have hl : perm.length = n1 * n2 := by simpa using hperm.length_eq
  have hnd : perm.Nodup := hperm.nodup_iff.2 List.nodup_range
  have hinj : ∀ x y, x < n1 * n2 → y < n1 * n2 → perm.getD x 0 = perm.getD y 0 → x = y := by
    intro x y hx hy h
    rw [getD_lt _ _ (by omega), getD_lt _ _ (by omega)] at h
    exact (hnd.getElem_inj_iff).1 h
  have hc1 : ∀ a ∈ row X i1, a.1 < n1 := fun a ha => hn1 ▸ hX.toWf.col_lt ha
  have hc2 : ∀ a ∈ row Y i2, a.1 < n2 := fun a ha => hn2 ▸ hY.toWf.col_lt ha
  unfold extRow
  rw [List.map_flatMap, List.nodup_flatMap]
  refine ⟨?_, ?_⟩
  · intro a ha
    rw [List.map_map]
    have e : List.map ((fun p : Nat × α => p.1) ∘ fun b : Nat × α =>
        (perm.getD (a.1 + b.1 * n1) 0, a.2 * b.2 * sg)) (row Y i2)
        = ((row Y i2).map fun p => p.1).map fun j => perm.getD (a.1 + j * n1) 0 := by
      rw [List.map_map]; rfl
    rw [e]
    refine List.Nodup.map_on ?_ (hY.nodup i2 h2)
    intro x hx y hy hxy
    obtain ⟨b, hb, rfl⟩ := List.mem_map.1 hx
    obtain ⟨b', hb', rfl⟩ := List.mem_map.1 hy
    have := hinj _ _ (pair_lt (hc1 a ha) (hc2 b hb)) (pair_lt (hc1 a ha) (hc2 b' hb')) hxy
    exact (pair_inj (hc1 a ha) (hc1 a ha) this).2
  · have hp : (row X i1).Pairwise (fun a a' => a.1 ≠ a'.1) := by
      have := hX.nodup i1 h1
      rw [List.Nodup, List.pairwise_map] at this
      exact this
    refine List.Pairwise.imp_of_mem ?_ hp
    intro a b ha hb hab x hx hy
    obtain ⟨t, ht, rfl⟩ := List.mem_map.1 hx
    obtain ⟨q, hq, rfl⟩ := List.mem_map.1 ht
    obtain ⟨t', ht', he⟩ := List.mem_map.1 hy
    obtain ⟨q', hq', rfl⟩ := List.mem_map.1 ht'
    have := hinj _ _ (pair_lt (hc1 b hb) (hc2 q' hq')) (pair_lt (hc1 a ha) (hc2 q hq)) he
    exact hab (pair_inj (hc1 b hb) (hc1 a ha) this).1.symm

theorem sumAt_extRow [CommRing α] {X Y : Crs α} (hX : Wf X) (hY : Wf Y) {perm : List Nat} {n1 n2 : Nat}
    (hn1 : X.ncol = n1) (hn2 : Y.ncol = n2) (hperm : perm.Perm (List.range (n1 * n2))) (i1 i2 : Nat)
    (sg : α) (j1 j2 : Nat) (h1 : j1 < n1) (h2 : j2 < n2) :
    sumAt (extRow X Y perm n1 i1 i2 sg) (perm.getD (j1 + j2 * n1) 0) =
      entry X i1 j1 * entry Y i2 j2 * sg := by
  have hl : perm.length = n1 * n2 := by simpa using hperm.length_eq
  have hnd : perm.Nodup := hperm.nodup_iff.2 List.nodup_range
  have hinj : ∀ x y, x < n1 * n2 → y < n1 * n2 → perm.getD x 0 = perm.getD y 0 → x = y := by
    intro x y hx hy h
    rw [getD_lt _ _ (by omega), getD_lt _ _ (by omega)] at h
    exact (hnd.getElem_inj_iff).1 h
  have inner : ∀ (a : Nat × α), a.1 < n1 → ∀ l : List (Nat × α), (∀ b ∈ l, b.1 < n2) →
      sumAt (l.map fun b => (perm.getD (a.1 + b.1 * n1) 0, a.2 * b.2 * sg)) (perm.getD (j1 + j2 * n1) 0)
        = if a.1 = j1 then a.2 * sumAt l j2 * sg else 0 := by
    intro a ha l hl
    induction l with
    | nil => simp
    | cons b l ih =>
      have hb := hl b (by simp)
      rw [List.map_cons, sumAt_cons, ih (fun b hb => hl b (by simp [hb])), sumAt_cons]
      by_cases e1 : a.1 = j1
      · by_cases e2 : b.1 = j2
        · simp only [e1, e2, if_true]; ring
        · have : ¬ perm.getD (a.1 + b.1 * n1) 0 = perm.getD (j1 + j2 * n1) 0 := fun h =>
            e2 (pair_inj ha h1 (hinj _ _ (pair_lt ha hb) (pair_lt h1 h2) h)).2
          rw [if_neg this, if_pos e1, if_pos e1, if_neg e2]; ring
      · have : ¬ perm.getD (a.1 + b.1 * n1) 0 = perm.getD (j1 + j2 * n1) 0 := fun h =>
            e1 (pair_inj ha h1 (hinj _ _ (pair_lt ha hb) (pair_lt h1 h2) h)).1
        rw [if_neg this, if_neg e1, if_neg e1]; ring
  have outer : ∀ l : List (Nat × α), (∀ a ∈ l, a.1 < n1) →
      sumAt (l.flatMap fun a => (row Y i2).map fun b => (perm.getD (a.1 + b.1 * n1) 0, a.2 * b.2 * sg))
        (perm.getD (j1 + j2 * n1) 0) = sumAt l j1 * entry Y i2 j2 * sg := by
    intro l hl
    induction l with
    | nil => simp
    | cons a l ih =>
      rw [List.flatMap_cons, sumAt_append, ih (fun b hb => hl b (by simp [hb])),
        inner a (hl a (by simp)) _ (fun b hb => hn2 ▸ hY.col_lt hb), sumAt_cons]
      by_cases e : a.1 = j1
      · simp only [e, if_true, entry]; ring
      · simp only [e, if_false]; ring
  exact outer (row X i1) (fun a ha => hn1 ▸ hX.col_lt ha)

theorem ext_rows [CommRing α] {A B : Crs α} (hA : Wf A) (hB : Wf B) (signs : List α) (order : Bool)
    (perm : List Nat) (hAs : A.nrow = A.ncol) (hBs : B.nrow = B.ncol)
    (hperm : perm.Perm (List.range (B.nrow * A.nrow)))
    (hsg : signs.length = if order then A.nrow else B.nrow) :
    ∃ (m : Crs α) (rows : List (List (Nat × α))),
      IsRows m (B.nrow * A.nrow) (B.nrow * A.nrow) rows ∧
      (∀ k (h : k < perm.length), rows[perm[k]]? = some
        (extRow (if order then A else B) (if order then B else A) perm (if order then A.nrow else B.nrow)
          (k % (if order then A.nrow else B.nrow)) (k / (if order then A.nrow else B.nrow))
          (signs.getD (k % (if order then A.nrow else B.nrow)) 0))) ∧
      (externalProduct A B signs order perm = (checkValidity m).bind fun _ => some m) := by
  set n1 := if order then A.nrow else B.nrow with hn1
  set X := if order then A else B with hX
  set Y := if order then B else A with hY
  have hWX : Wf X := by rw [hX]; split_ifs; exacts [hA, hB]
  have hWY : Wf Y := by rw [hY]; split_ifs; exacts [hB, hA]
  have hXn : X.nrow = n1 := by rw [hX, hn1]; split_ifs <;> rfl
  have hXc : X.ncol = n1 := by rw [hX, hn1]; split_ifs <;> simp [hAs, hBs]
  have hYc : Y.ncol = Y.nrow := by rw [hY]; split_ifs <;> simp [hAs, hBs]
  have hN : B.nrow * A.nrow = n1 * Y.nrow := by
    rw [hn1, hY]; split_ifs
    · rw [Nat.mul_comm]
    · rfl
  have hl : perm.length = B.nrow * A.nrow := by simpa using hperm.length_eq
  have hlt : ∀ k (h : k < perm.length), perm[k] < B.nrow * A.nrow := fun k h =>
    List.mem_range.1 (hperm.mem_iff.1 (List.getElem_mem h))
  set n := B.nrow * A.nrow with hn
  obtain ⟨inv, hinv, hinv2⟩ := inv_loop hperm
  -- every `i < n` is `perm[k]` for some k, and then `inv[i] = k`
  have hsurj : ∀ i, i < n → ∃ k, ∃ h : k < perm.length, perm[k] = i := by
    intro i hi
    have : i ∈ perm := hperm.mem_iff.2 (List.mem_range.2 hi)
    obtain ⟨k, hk, e⟩ := List.getElem_of_mem this
    exact ⟨k, hk, e⟩
  let rw_ : Nat → List (Nat × α) := fun i =>
    extRow X Y perm n1 (inv.getD i 0 % n1) (inv.getD i 0 / n1) (signs.getD (inv.getD i 0 % n1) 0)
  obtain ⟨⟨m, cnt⟩, h1, h2, h3⟩ := loopN_inv
    (fun i (s : Crs α × Nat) => Built s.1 n n ((List.range i).map rw_) ∧
      s.2 = ((List.range i).map rw_).flatten.length) n
    (fun i (s : Crs α × Nat) => do
      let c ← setRow s.1 i s.2
      let ind ← inv[i]?
      rowLoop X (ind % n1) (fun col1 v1 s =>
        rowLoop Y (ind / n1) (fun col2 v2 (s : Crs α × Nat) => do
          let j ← perm[col1 + col2 * n1]?
          let sg ← signs[ind % n1]?
          some (push s.1 j (v1 * v2 * sg), s.2 + 1)) s) (c, s.2)) (resize2 n n, 0)
    ⟨built_resize2 n n, rfl⟩ (by
      rintro i ⟨m, cnt⟩ hi ⟨g1, g2⟩
      simp only at g1 g2
      obtain ⟨c, e1, e2⟩ := g1.newRow i (by simp) hi cnt g2
      obtain ⟨k, hk, rfl⟩ := hsurj i hi
      have hik : inv.getD perm[k] 0 = k := by
        rw [List.getD_eq_getElem?_getD, hinv2 k hk]; rfl
      have hkn : k < n1 * Y.nrow := by omega
      have hn1p : 0 < n1 := Nat.pos_of_ne_zero (by rintro h; rw [h] at hkn; simp at hkn)
      have hk1 : k % n1 < n1 := Nat.mod_lt _ hn1p
      have hk2 : k / n1 < Y.nrow := Nat.div_lt_of_lt_mul hkn
      have hsg' : signs[k % n1]? = some (signs.getD (k % n1) 0) := by
        rw [getD_lt _ _ (by rw [hsg]; exact hk1)]
        exact List.getElem?_eq_getElem _
      obtain ⟨m', e3, e4⟩ := push_loop (rw_ perm[k]) cnt e2
      refine ⟨(m', cnt + (rw_ perm[k]).length), ?_, ?_, ?_⟩
      · simp only [e1, hinv2 k hk, bind, Option.bind_some]
        rw [hWX.rowLoop _ (by rw [hXn]; exact hk1), ← e3]
        simp only [rw_, hik]
        unfold extRow
        rw [foldlM_flatMap]
        refine foldlM_congr _ _ _ _ (fun s a ha => ?_)
        rw [hWY.rowLoop _ hk2, foldlM_map']
        refine foldlM_congr _ _ _ _ (fun s b hb => ?_)
        have hab : a.1 + b.1 * n1 < perm.length := by
          rw [hl, hN, ← hYc]
          exact pair_lt (hXc ▸ hWX.col_lt ha) (hWY.col_lt hb)
        rw [List.getElem?_eq_getElem hab, hsg']
        simp only [Option.bind_some, getD_lt _ _ hab]
      · rw [List.range_succ, List.map_append]; exact e4
      · rw [List.range_succ, List.map_append, List.flatten_append, List.length_append, ← g2]
        simp)
  simp only at h2 h3
  obtain ⟨m', e1, e2⟩ := h2.finish (by simp) cnt h3
  refine ⟨m', _, e2, ?_, ?_⟩
  · intro k hk
    rw [List.getElem?_map, List.getElem?_range (hlt k hk)]
    have hik : inv.getD perm[k] 0 = k := by
      rw [List.getD_eq_getElem?_getD, hinv2 k hk]; rfl
    simp only [Option.map_some, rw_, hik]
  · unfold externalProduct
    rw [hl]
    simp only [bind] at hinv
    simp only [hinv, bind, Option.bind_some, ← hn1, ← hX, ← hY]
    rw [if_neg (by
      rw [not_or, not_or, not_or]
      exact ⟨not_not.2 hAs, not_not.2 hBs, not_not.2 rfl, not_not.2 hsg⟩)]
    simp only [bind] at h1
    rw [h1]
    simp only [Option.bind_some]
    rw [e1]
    rfl

end Verif.Crs
