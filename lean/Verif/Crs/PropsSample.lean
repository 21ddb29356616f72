import Verif.Crs.ModelSample
import Verif.Crs.Props2

/-! # C86: SampleCRSMatrix -/

namespace Verif.Crs

open Verif.Loop
open scoped Matrix

variable {α : Type}

/-- **C86** The product adds `A*y` to `x`. -/
theorem sample_product [CommRing α] {m : Sample α} {n : Nat} {A : Matrix (Fin n) (Fin n) α} (h : Represents m.crs n n A) (x y : Fin n → α) :
    m.matrixVectorProduct (List.ofFn x) (List.ofFn y) = some (List.ofFn (x + A *ᵥ y)) := by
  have := matrixVectorProduct_spec h x y
  unfold Crs.matrixVectorProduct at this
  rw [if_neg (by simp)] at this
  exact this

/-- **C86** A vector that is too long is not refused: what is after the row pointers is read. -/
theorem sample_product_long_fails [Add α] [Mul α] (m : Sample α) (hp : m.rowptr.length = m.rank + 1) (x y : List α) (hy : m.rank < y.length) :
    m.matrixVectorProduct x y = none := by
  unfold Sample.matrixVectorProduct
  obtain ⟨d, hd⟩ : ∃ d, y.length = m.rank + 1 + d := ⟨y.length - (m.rank + 1), by omega⟩
  generalize hf : (fun i x => rowLoop m.crs i (fun j v x => do
    let b ← y[j]?
    updAt x i (· + v * b)) x) = f
  have hnone : ∀ s, f m.rank s = none := by
    intro s
    rw [← hf]
    simp only [rowLoop]
    have : m.crs.rowptr[m.rank + 1]? = none := List.getElem?_eq_none (by simp [Sample.crs, hp])
    rw [this]
    cases m.crs.rowptr[m.rank]? <;> rfl
  have key : ∀ d, loopN (m.rank + 1 + d) f x = none := by
    intro d
    induction d with
    | zero =>
      rw [Nat.add_zero, loopN]
      cases loopN m.rank f x with
      | none => rfl
      | some s => exact hnone s
    | succ d ih =>
      rw [show m.rank + 1 + (d + 1) = (m.rank + 1 + d) + 1 by omega, loopN, ih]
      rfl
  rw [hd]
  exact key d

/-- **C86** Reading what was saved gives the same matrix, and the rest of the stream is not read. -/
theorem sample_save_read (m : Sample α) (h1 : m.rowptr.length < 2147483648) (h2 : m.colind.length < 2147483648)
    (h3 : m.values.length < 2147483648) (rest : List (Tok α)) : Sample.read (m.save ++ rest) = some (m, rest) := by
  unfold Sample.read Sample.save saveVector readSize
  simp only [List.cons_append, List.append_assoc, readNum, bind, Option.bind_some, if_pos h1]
  rw [readNums_append]
  simp only [Option.bind_some, readNum, if_pos h2]
  rw [readNums_append]
  simp only [Option.bind_some, readNum, if_pos h3]
  rw [readVals_append]
  rfl

theorem loopN_map {σ τ : Type} (g : σ → τ) (f : Nat → σ → Option σ) (f' : Nat → τ → Option τ) (n : Nat) (s : σ)
    (h : ∀ i s, (f i s).map g = f' i (g s)) : (loopN n f s).map g = loopN n f' (g s) := by
  induction n with
  | zero => rfl
  | succ n ih =>
    rw [loopN, loopN, ← ih]
    cases loopN n f s with
    | none => rfl
    | some s => exact h n s

theorem loopFrom_map {σ τ : Type} (g : σ → τ) (f : Nat → σ → Option σ) (f' : Nat → τ → Option τ) (a b : Nat) (s : σ)
    (h : ∀ i s, (f i s).map g = f' i (g s)) : (loopFrom a b f s).map g = loopFrom a b f' (g s) := by
  unfold loopFrom
  exact loopN_map g _ _ _ _ fun i s => h (a + i) s

/-- The loops are those of the constructor of `CrsMatrix` from coordinates. -/
theorem sample_fill (rank : Nat) (rows iperm cols : List Nat) (vals : List α) :
    (Sample.fillMatrix rank rows iperm cols vals).map Sample.crs = ofCoo rank rows iperm cols vals := by
  unfold Sample.fillMatrix ofCoo
  cases rows[0]? with
  | none => rfl
  | some r0 =>
    simp only [bind, Option.bind_some]
    have e := loopN_map (fun s : Sample α × Nat × Nat => (s.1.crs, s.2.1, s.2.2))
      (fun i (s : Sample α × Nat × Nat) => (rows[i]?).bind fun row =>
        if s.2.2 ≠ row then ((setAt s.1.rowptr row s.2.1).map fun r => (({ s.1 with rowptr := r } : Sample α), s.2.1 + 1, row)).bind
          fun q => (iperm[i]?).bind fun p => (cols[p]?).bind fun c => (vals[p]?).bind fun v =>
            some (({ q.1 with colind := q.1.colind ++ [c], values := q.1.values ++ [v] } : Sample α), q.2.1, q.2.2)
        else (iperm[i]?).bind fun p => (cols[p]?).bind fun c => (vals[p]?).bind fun v =>
          some (({ s.1 with colind := s.1.colind ++ [c], values := s.1.values ++ [v] } : Sample α), s.2.1, s.2.2))
      (fun i (s : Crs α × Nat × Nat) => (rows[i]?).bind fun row =>
        if s.2.2 ≠ row then ((setRow s.1 row s.2.1).map fun m => (m, s.2.1 + 1, row)).bind fun q =>
          (iperm[i]?).bind fun p => (cols[p]?).bind fun c => (vals[p]?).bind fun v => some (push q.1 c v, q.2.1, q.2.2)
        else (iperm[i]?).bind fun p => (cols[p]?).bind fun c => (vals[p]?).bind fun v => some (push s.1 c v, s.2.1, s.2.2))
      rows.length (⟨rank, List.replicate (rank + 1) 0, [], []⟩, 0, r0 + 1) (by
        rintro i ⟨m, counter, prev⟩
        simp only
        cases rows[i]? with
        | none => rfl
        | some row =>
          simp only [Option.bind_some]
          have tail : ∀ q : Sample α × Nat × Nat, Option.map (fun s : Sample α × Nat × Nat => (s.1.crs, s.2.1, s.2.2))
              ((iperm[i]?).bind fun p => (cols[p]?).bind fun c => (vals[p]?).bind fun v =>
                some (({ q.1 with colind := q.1.colind ++ [c], values := q.1.values ++ [v] } : Sample α), q.2.1, q.2.2)) =
              (iperm[i]?).bind fun p => (cols[p]?).bind fun c => (vals[p]?).bind fun v => some (push q.1.crs c v, q.2.1, q.2.2) := by
            intro q
            cases iperm[i]? with
            | none => rfl
            | some p =>
              simp only [Option.bind_some]
              cases cols[p]? with
              | none => rfl
              | some c =>
                simp only [Option.bind_some]
                cases vals[p]? <;> rfl
          by_cases hp : prev ≠ row
          · rw [if_pos hp, if_pos hp]
            unfold setRow
            have : m.crs.rowptr = m.rowptr := rfl
            rw [this]
            cases setAt m.rowptr row counter with
            | none => rfl
            | some r => exact tail (({ m with rowptr := r } : Sample α), counter + 1, row)
          · rw [if_neg hp, if_neg hp]
            exact tail (m, counter, prev))
    refine (?_ : Option.map Sample.crs ((loopN rows.length _ _).bind fun (s : _ × Nat × Nat) => (rows[rows.length - 1]?).bind fun last =>
      loopFrom (last + 1) (rank + 1) (fun i (m : Sample α) => (setAt m.rowptr i s.2.1).map fun r => { m with rowptr := r }) s.1) = 
      (loopN rows.length _ _).bind fun (s : _ × Nat × Nat) => (rows[rows.length - 1]?).bind fun last =>
      loopFrom (last + 1) (rank + 1) (fun i m => setRow m i s.2.1) s.1)
    refine Eq.trans ?_ (congrArg (fun t => Option.bind t fun (s : Crs α × Nat × Nat) => (rows[rows.length - 1]?).bind fun last =>
      loopFrom (last + 1) (rank + 1) (fun i m => setRow m i s.2.1) s.1) e)
    generalize loopN rows.length _ _ = t
    cases t with
    | none => rfl
    | some s =>
      simp only [Option.bind_some, Option.map_some]
      cases rows[rows.length - 1]? with
      | none => rfl
      | some last =>
        rw [Option.bind_some, Option.bind_some]
        refine loopFrom_map Sample.crs _ _ _ _ _ ?_
        intro i m
        unfold setRow
        have : m.crs.rowptr = m.rowptr := rfl
        rw [this]
        cases setAt m.rowptr i s.2.1 <;> rfl

/-- **C86** The matrix is not the one with the given elements: with two of them in the first row the second one is lost. -/
theorem sample_fill_fails : ∃ m : Sample Int, Sample.fillMatrix 2 [0, 0, 1] [0, 1, 2] [0, 1, 0] [5, 6, 7] = some m ∧ ¬ Wf m.crs ∧
    entry m.crs 0 1 = 0 := by
  refine ⟨⟨2, [0, 1, 2], [0, 1, 0], [5, 6, 7]⟩, by decide, ?_, by decide⟩
  intro h
  exact absurd h.finish (by decide)

/-- **C86** It is right if each of the first `k` rows is given one element and the other ones none. -/
theorem sample_fill_single [AddCommMonoid α] (rank k : Nat) (hk : 0 < k) (hkr : k ≤ rank)
    (iperm rows2 cols : List Nat) (vals : List α) (hi : iperm.Perm (List.range k))
    (hr2 : rows2.length = k) (hs : ∀ i (h : i < iperm.length), rows2[iperm[i]]? = some i)
    (hc : cols.length = k) (hv : vals.length = k) (hcr : ∀ c ∈ cols, c < rank) :
    ∃ m : Sample α, Sample.fillMatrix rank (List.range k) iperm cols vals = some m ∧ Valid m.crs ∧
      (∀ (t r c : Nat) (v : α), rows2[t]? = some r → cols[t]? = some c → vals[t]? = some v → row m.crs r = [(c, v)]) ∧
      ∀ r, k ≤ r → row m.crs r = [] := by
  obtain ⟨m, h1, h2, -, -, h3, h4⟩ := ofCoo_partial rank k hk hkr iperm rows2 cols vals hi hr2 hs hc hv hcr
  rw [← sample_fill, Option.map_eq_some_iff] at h1
  obtain ⟨s, h5, rfl⟩ := h1
  exact ⟨s, h5, h2, h3, h4⟩

example : (⟨2, [0, 1, 2], [1, 0], [3, 5]⟩ : Sample Int).save =
    [.num 2, .num 3, .num 0, .num 1, .num 2, .num 2, .num 1, .num 0, .num 2, .val 3, .val 5] := by decide
example : (⟨2, [0, 1, 2], [1, 0], [3, 5]⟩ : Sample Int).matrixVectorProduct [1, 1] [10, 1] = some [4, 51] := by decide

/-! ## Cases -/

example := sample_fill_single 4 3 (by decide) (by decide) [2, 0, 1] [1, 2, 0] [1, 3, 0] [(10 : Int), 20, 30] (by decide) rfl (by decide) rfl rfl (by decide)

end Verif.Crs
