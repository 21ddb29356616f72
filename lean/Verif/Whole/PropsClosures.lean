import Verif.Whole.ModelClosures
import Verif.Whole.PropsSparse
import Verif.Crs.PropsExpr
import Verif.Dense.PropsExpr

/-!
# C144: expressions of sparse matrices against those of dense ones
-/

namespace Verif.Whole.Closures

open Verif.Loop Verif.Dense

/-! ## Specification -/

/-- A matrix with at most `k` elements that are not zero, each a random number from 0 to 1 times `m`. -/
def Scattered {n : Nat} (k : Nat) (m : ℚ) (A : Matrix (Fin n) (Fin n) ℚ) : Prop :=
  ∃ S : Finset (Fin n × Fin n), S.card ≤ k ∧ (∀ i j, (i, j) ∉ S → A i j = 0) ∧ ∀ i j, (i, j) ∈ S → ∃ r, 0 ≤ r ∧ r < 1 ∧ A i j = r * m

/-! ## Lemmas -/

theorem rep_set {m : Mat ℚ} {n i j : Nat} {A : Matrix (Fin n) (Fin n) ℚ} (h : Dense.Represents m n n A) (hi : i < n) (hj : j < n) (v : ℚ) :
    ∃ m', m.set i j v = some m' ∧ Dense.Represents m' n n (fun i' j' => if i'.1 = i ∧ j'.1 = j then v else A i' j') := by
  obtain ⟨m', h1, h2, h3, h4⟩ := Shape.set ⟨h.nrow, h.ncol, h.size⟩ hi hj v
  refine ⟨m', h1, h2.nrow, h2.ncol, h2.size, fun i' j' => ?_⟩
  by_cases e : i'.1 = i ∧ j'.1 = j
  · rw [if_pos e, e.1, e.2, h3]
  · rw [if_neg e, h4 _ _ i'.2 j'.2 (by omega), h.entry]

theorem scattered_set {n k : Nat} {m : ℚ} {A : Matrix (Fin n) (Fin n) ℚ} (h : Scattered k m A) {i j : Nat} (hi : i < n) (hj : j < n) {r : ℚ}
    (h0 : 0 ≤ r) (h1 : r < 1) : Scattered (k + 1) m (fun i' j' => if i'.1 = i ∧ j'.1 = j then r * m else A i' j') := by
  obtain ⟨S, s1, s2, s3⟩ := h
  refine ⟨insert (⟨i, hi⟩, ⟨j, hj⟩) S, (Finset.card_insert_le _ _).trans (by omega), ?_, ?_⟩
  · intro i' j' hm
    rw [Finset.mem_insert, not_or] at hm
    have hne : ¬ (i'.1 = i ∧ j'.1 = j) := fun e => hm.1 (Prod.ext (Fin.ext e.1) (Fin.ext e.2))
    show (if i'.1 = i ∧ j'.1 = j then r * m else A i' j') = 0
    rw [if_neg hne]
    exact s2 _ _ hm.2
  · intro i' j' hm
    by_cases e : i'.1 = i ∧ j'.1 = j
    · exact ⟨r, h0, h1, if_pos e⟩
    · simp only [if_neg e]
      rcases Finset.mem_insert.1 hm with hm | hm
      · exact absurd ⟨congrArg (fun p => p.1.1) hm, congrArg (fun p => p.2.1) hm⟩ e
      · exact s3 _ _ hm

theorem create_ok {rnd : ℚ → ℚ} (hr : Sparse.Sizes rnd) {n : Nat} (h0 : 0 < n) (hn : n < 2 ^ 31) (seed : Int) (k : Nat) (m : ℚ) :
    ∃ c A, createRandomCrs rnd n seed k m = some c ∧ Scattered k m A ∧ Crs.Represents c n n A ∧ Crs.Valid c := by
  obtain ⟨s, s1, A, s2, s3⟩ := loopN_inv (fun t (s : Mat ℚ × Nat) => ∃ A, Dense.Represents s.1 n n A ∧ Scattered t m A) k
    (fun _ s => fillOne rnd m s) (Mat.mk0 n n, Random.srand48 seed)
    ⟨0, mk0_rep n n, ∅, by simp, fun _ _ _ => rfl, by simp⟩
    (fun t s _ ⟨A, a1, a2⟩ => by
      unfold fillOne
      rw [a1.nrow, a1.ncol]
      have hi := Sparse.drawSize_lt hr s.2 n h0 hn
      have hj := Sparse.drawSize_lt hr (Sparse.drawSize rnd s.2 n).2 n h0 hn
      obtain ⟨m', m1, m2⟩ := rep_set a1 hi hj ((Random.drand48 (Sparse.drawSize rnd (Sparse.drawSize rnd s.2 n).2 n).2).1 * m)
      obtain ⟨r, r0, r1, r2⟩ := Sparse.drawn48 (fun x : ℚ => x) (Sparse.drawSize rnd (Sparse.drawSize rnd s.2 n).2 n).2
      simp only [bind, m1, Option.bind_some]
      refine ⟨_, rfl, _, m2, ?_⟩
      rw [r2]
      exact scattered_set a2 hi hj r0 r1)
  obtain ⟨c, c1, c2, c3, -⟩ := Crs.fullMatrixToCrsMatrix_spec h0 h0 s2
  refine ⟨c, A, ?_, s3, c2, c3⟩
  unfold createRandomCrs
  rw [s1]
  exact c1

theorem add_same {n : Nat} (h0 : 0 < n) {B C : Crs.Crs ℚ} {MB MC : Matrix (Fin n) (Fin n) ℚ} (hB : Crs.Represents B n n MB)
    (hC : Crs.Represents C n n MC) (a : ℚ) : ∃ A, Crs.add B C a = some A ∧ Crs.Valid A ∧ Crs.Represents A n n (MB + a • MC) := by
  obtain ⟨A, h1, h2, h3⟩ := Crs.operatorPlus_same h0 h0 hB hC 1 a
  rw [one_smul] at h3
  refine ⟨A, ?_, h2, h3⟩
  unfold Crs.add
  rw [if_neg (by rw [hC.nrow, hC.ncol]; simp), if_pos (by rw [hB.nrow, hC.nrow]), h1]

/-! ## Theorems -/

/-- **C144** The check of the program: whether all elements are as near as 10⁻⁶. -/
theorem check_iff {r c : Nat} {A B : Matrix (Fin r) (Fin c) ℚ} {m : Crs.Crs ℚ} {fm : Mat ℚ} (hv : Crs.Valid m) (hm : Crs.Represents m r c A)
    (hf : Dense.Represents fm r c B) : checkCrs m fm = some (decide (∀ i j, |A i j - B i j| ≤ 1 / 1000000)) := by
  obtain ⟨d, d1, d2⟩ := Crs.toDense_spec hv hm
  unfold checkCrs
  simp only [d1, bind, Option.bind_some]
  rw [hf.nrow, hf.ncol, scan_double r c _ (fun i j => decide (|A i j - B i j| ≤ 1 / 1000000)) (fun i j b => by
    cases b
    · simp
    · simp [d2.entry, hf.entry, ← not_lt])]
  simp

theorem check_same {r c : Nat} {A : Matrix (Fin r) (Fin c) ℚ} {m : Crs.Crs ℚ} {fm : Mat ℚ} (hv : Crs.Valid m) (hm : Crs.Represents m r c A)
    (hf : Dense.Represents fm r c A) : checkCrs m fm = some true := by
  rw [check_iff hv hm hf]
  simp

/-- **C144** All four checks pass, and the sparse and the dense variables hold the matrices that the expressions mean, for matrices of
any size, any seed, number of elements, largest value and factors. -/
theorem checks_pass {rnd : ℚ → ℚ} (hr : Sparse.Sizes rnd) (p : Params) (h0 : 0 < p.n) (hn : p.n < 2 ^ 31) :
    ∃ (A B : Matrix (Fin p.n) (Fin p.n) ℚ) (s : Crs.Store ℚ) (d : Mem ℚ),
      Scattered p.nonZeros p.maxValue A ∧ Scattered p.nonZeros p.maxValue B ∧
      checks rnd p = some ([true, true, true, true], s, d) ∧
      (∀ x M, (x, M) ∈ [(1, A + p.k1 • B), (2, B), (3, (A + p.k1 • B) * B),
          (4, p.k2 • B + p.k3 • ((A + p.k1 • B) * ((A + p.k1 • B) * B)))] →
        Crs.Represents (s x) p.n p.n M ∧ Dense.Represents (d.mat x) p.n p.n M) := by
  obtain ⟨m1, A, a1, a2, a3, a4⟩ := create_ok hr h0 hn p.seed p.nonZeros p.maxValue
  obtain ⟨m2, B, b1, b2, b3, b4⟩ := create_ok hr h0 hn (p.seed + 111) p.nonZeros p.maxValue
  obtain ⟨fm1, f1, f2⟩ := Crs.toDense_spec a4 a3
  obtain ⟨fm2, g1, g2⟩ := Crs.toDense_spec b4 b3
  -- the dense variables at the beginning
  obtain ⟨p1, p1'⟩ := put_becomes noMem 1 _ _ _ _ f2
  obtain ⟨p2, p2'⟩ := put_becomes (noMem.put 1 fm1) 2 _ _ _ _ g2
  have e1 : Dense.Represents (((noMem.put 1 fm1).put 2 fm2).mat 1) p.n p.n A := by rw [p2' 1 (by decide)]; exact p1
  -- first
  obtain ⟨q1, s1, s2, s3⟩ := add_same h0 a3 b3 p.k1
  obtain ⟨d1, t1, t2, t3⟩ := (addMul_spec ((noMem.put 1 fm1).put 2 fm2) 1 2 p.n p.n (.num p.k1) p.k1 B rfl (by simp) p2).1 A e1
  have e2 : Dense.Represents (d1.mat 2) p.n p.n B := by rw [t3 2 (by decide)]; exact p2
  have c1 := check_same s2 s3 t2
  -- second
  obtain ⟨q3, u1, u2, u3⟩ := Crs.multiply_spec h0 h0 s3 b3
  obtain ⟨d3, v1, v2, v3⟩ := massign_spec d1 3 (.prod (.mat 1) (.mat 2)) p.n p.n _ (.prod _ _) (.prod (.mat t2) (.mat e2)) (.inl (by simp [MExpr.scals]))
  have c3 := check_same u2 u3 v2
  have e3 : Dense.Represents (d3.mat 2) p.n p.n B := by rw [v3 2 (by decide)]; exact e2
  have e31 : Dense.Represents (d3.mat 1) p.n p.n (A + p.k1 • B) := by rw [v3 1 (by decide)]; exact t2
  -- third
  have w3 := Crs.mulAssign_spec b3 p.k2
  have w2 : Crs.Valid (Crs.mulAssign m2 p.k2) := Crs.valid_map_values b4 _
  obtain ⟨d4, x1, x2, x3⟩ := massign_spec d3 4 (.mul (.num p.k2) (.mat 2)) p.n p.n _ (.mul _ _) (.mul (a := p.k2) rfl (.mat e3)) (.inl (by simp [MExpr.scals]))
  have c4 := check_same w2 w3 x2
  have e41 : Dense.Represents (d4.mat 1) p.n p.n (A + p.k1 • B) := by rw [x3 1 (by decide)]; exact e31
  have e42 : Dense.Represents (d4.mat 2) p.n p.n B := by rw [x3 2 (by decide)]; exact e3
  have e43 : Dense.Represents (d4.mat 3) p.n p.n ((A + p.k1 • B) * B) := by rw [x3 3 (by decide)]; exact v2
  -- fourth
  obtain ⟨q5, y1, y2, y3⟩ := Crs.multiply_spec h0 h0 s3 u3
  obtain ⟨q6, z1, z2, z3⟩ := add_same h0 w3 y3 p.k3
  obtain ⟨d5, k1, k2, k3⟩ := massign_spec d4 5 (.prod (.mul (.num p.k3) (.mat 1)) (.mat 3)) p.n p.n _ (.mulProd _ _ _)
    (.prod (.mul (a := p.k3) rfl (.mat e41)) (.mat e43)) (.inl (by simp [MExpr.scals]))
  have e54 : Dense.Represents (d5.mat 4) p.n p.n (p.k2 • B) := by rw [k3 4 (by decide)]; exact x2
  obtain ⟨fm4, l1, l2⟩ := addAssign_rep e54 k2
  obtain ⟨n1, n2⟩ := put_becomes d5 4 _ _ _ _ l2
  rw [Matrix.smul_mul] at n1
  have c5 := check_same z2 z3 n1
  -- the sparse variables
  obtain ⟨S0, hS0⟩ : ∃ S : Crs.Store ℚ, S = fun x => if x = 1 then m1 else if x = 2 then m2 else Crs.Crs.empty := ⟨_, rfl⟩
  have o1 : Crs.plusMul S0 1 (.num p.k1) 2 = some (S0.set 1 q1) := by
    have : Crs.add (S0 1) (S0 2) p.k1 = some q1 := by rw [hS0]; exact s1
    simp only [Crs.plusMul, Crs.Factor.value, bind, Option.bind_some, this]
  have o2 : Crs.makeProd (S0.set 1 q1) 3 1 2 = some ((S0.set 1 q1).set 3 q3) := by
    have : Crs.multiply (S0.set 1 q1 1) (S0.set 1 q1 2) = some q3 := by rw [hS0]; exact u1
    simp only [Crs.makeProd, bind, Option.bind_some, this]
  have o3 : Crs.assignMul ((S0.set 1 q1).set 3 q3) 4 (.num p.k2) 2 = some (((S0.set 1 q1).set 3 q3).set 4 (Crs.mulAssign m2 p.k2)) := by
    have : ((S0.set 1 q1).set 3 q3) 2 = m2 := by rw [hS0]; rfl
    simp only [Crs.assignMul, this]
  have o4 : Crs.plusMulProd (((S0.set 1 q1).set 3 q3).set 4 (Crs.mulAssign m2 p.k2)) 4 (.num p.k3) 1 3 =
      some ((((S0.set 1 q1).set 3 q3).set 4 (Crs.mulAssign m2 p.k2)).set 4 q6) := by
    have e1 : (((S0.set 1 q1).set 3 q3).set 4 (Crs.mulAssign m2 p.k2)) 1 = q1 := rfl
    have e3 : (((S0.set 1 q1).set 3 q3).set 4 (Crs.mulAssign m2 p.k2)) 3 = q3 := rfl
    have e4 : (((S0.set 1 q1).set 3 q3).set 4 (Crs.mulAssign m2 p.k2)) 4 = Crs.mulAssign m2 p.k2 := rfl
    simp only [Crs.plusMulProd, e1, e3, e4, y1, z1, Crs.Factor.value, bind, Option.bind_some]
  have o5 : plusDense d5 4 5 = some (d5.put 4 fm4) := by
    unfold plusDense
    rw [l1]; rfl
  have c1' : checkCrs ((S0.set 1 q1) 1) (d1.mat 1) = some true := c1
  have c3' : checkCrs (((S0.set 1 q1).set 3 q3) 3) (d3.mat 3) = some true := c3
  have c4' : checkCrs ((((S0.set 1 q1).set 3 q3).set 4 (Crs.mulAssign m2 p.k2)) 4) (d4.mat 4) = some true := c4
  have c5' : checkCrs (((((S0.set 1 q1).set 3 q3).set 4 (Crs.mulAssign m2 p.k2)).set 4 q6) 4) ((d5.put 4 fm4).mat 4) = some true := c5
  refine ⟨A, B, (((S0.set 1 q1).set 3 q3).set 4 (Crs.mulAssign m2 p.k2)).set 4 q6, d5.put 4 fm4, a2, b2, ?_, ?_⟩
  · have w0 : start rnd p = some (S0, (noMem.put 1 fm1).put 2 fm2) := by
      rw [hS0]
      simp only [start, a1, b1, f1, g1, bind, Option.bind_some]
    have w1 : test1 p (S0, (noMem.put 1 fm1).put 2 fm2) = some (true, S0.set 1 q1, d1) := by
      simp only [test1, o1, t1, fine, c1', bind, Option.bind_some]
    have w2 : test2 (S0.set 1 q1, d1) = some (true, (S0.set 1 q1).set 3 q3, d3) := by
      simp only [test2, o2, v1, c3', bind, Option.bind_some]
    have w3 : test3 p ((S0.set 1 q1).set 3 q3, d3) = some (true, ((S0.set 1 q1).set 3 q3).set 4 (Crs.mulAssign m2 p.k2), d4) := by
      simp only [test3, o3, x1, c4', bind, Option.bind_some]
    have w4 : test4 p (((S0.set 1 q1).set 3 q3).set 4 (Crs.mulAssign m2 p.k2), d4) =
        some (true, (((S0.set 1 q1).set 3 q3).set 4 (Crs.mulAssign m2 p.k2)).set 4 q6, d5.put 4 fm4) := by
      simp only [test4, o4, k1, o5, c5', bind, Option.bind_some]
    simp only [checks, w0, w1, w2, w3, w4, bind, Option.bind_some]
  · intro x M hx
    simp only [List.mem_cons, Prod.mk.injEq, List.not_mem_nil, or_false] at hx
    rcases hx with ⟨rfl, rfl⟩ | ⟨rfl, rfl⟩ | ⟨rfl, rfl⟩ | ⟨rfl, rfl⟩
    · refine ⟨s3, ?_⟩
      rw [n2 1 (by decide), k3 1 (by decide)]
      exact e41
    · refine ⟨by rw [hS0]; exact b3, ?_⟩
      rw [n2 2 (by decide), k3 2 (by decide)]
      exact e42
    · refine ⟨u3, ?_⟩
      rw [n2 3 (by decide), k3 3 (by decide)]
      exact e43
    · exact ⟨z3, n1⟩

/-- **C144** The text of the program. -/
theorem prints {rnd : ℚ → ℚ} (hr : Sparse.Sizes rnd) (p : Params) (h0 : 0 < p.n) (hn : p.n < 2 ^ 31) :
    (checks rnd p).bind (fun r => report r.1) = some ("---operator+=scalar*crs----TEST 1/4\n".toList ++ "CHECK PASSES=1\n".toList ++
      "-------------\n".toList ++ "---ctor(crs*crs)----TEST 2/4\n".toList ++ "CHECK PASSES=1\n".toList ++
      "---ctor(scalar*crs)----TEST 3/4\n".toList ++ "CHECK PASSES=1\n".toList ++ "---ctor(scalar*crs)----TEST 4/4\n".toList ++
      "CHECK PASSES=1\n".toList ++ "-------------\n".toList) := by
  obtain ⟨A, B, s, d, -, -, h, -⟩ := checks_pass hr p h0 hn
  have e : checkText true = "CHECK PASSES=1\n".toList := by decide
  rw [h, Option.bind_some]
  simp only [report, e]

/-- The numbers of the program. -/
def example1 : Params := ⟨10, 343981, 50, 10, 12 / 10, 13 / 10, 14 / 10⟩

example : ∃ s d, checks id example1 = some ([true, true, true, true], s, d) := by
  obtain ⟨A, B, s, d, -, -, h, -⟩ := checks_pass Sparse.sizes_id example1 (by decide) (by decide)
  exact ⟨s, d, h⟩

/-- A check that does not pass: a matrix of one element and another one. -/
example : checkCrs ⟨[0, 1], [0], [1], 1, 1⟩ ⟨1, 1, [2]⟩ = some false := by
  decide +kernel

end Verif.Whole.Closures
