import Verif.Geom.ModelMesh
import Verif.Geom.PropsInput
import Mathlib.Tactic.Linarith
import Mathlib.Tactic.FieldSimp
import Mathlib.Tactic.Ring
import Mathlib.Tactic.Positivity

/-!
# **C95** The mesh of momenta and sums of momenta
-/

namespace Verif.Geom

open Verif.InputNg Verif.StrUtil

theorem kept_text {ls : List Line} (hk : KindsApart ls) {r : Readable} (ha : After ls [] r) {l v : Str} {rest : List Str}
    (hl : l ≠ [] ∧ '@' ∉ l ∧ l.getLast? ≠ some '=') (hx : occ (texts ls) l = v :: rest) : readline r (l ++ ['=']) false = .ok (v, r) := by
  obtain ⟨g1, g2, g3⟩ := hl
  rw [readline_equal r l g1 g3]
  rcases call_step ls hk [] r ha (.text l false) ⟨g1, g2, g3⟩ with ⟨h1, -, -⟩ | ⟨a, r', h1, h2, -⟩
  · simp [answer, movedText, hx] at h1
  · simp only [answer, movedText, hx, List.countP_nil, Nat.zero_min, List.getElem?_cons_zero, Option.map_some, Option.some.injEq] at h1
    subst h1
    simp only [Call.run] at h2
    cases hr : readline r l false with
    | error e => rw [hr] at h2; cases h2
    | ok x =>
      obtain ⟨v', r''⟩ := x
      have hrr : r'' = r := by
        unfold readline at hr
        cases hl2 : label2label l with
        | error e => rw [hl2] at hr; cases hr
        | ok l2 =>
          rw [hl2] at hr
          simp only [bind, Except.bind] at hr
          split at hr
          · cases hr
          · simp only [Bool.false_eq_true, if_false, pure, Except.pure, Except.ok.injEq, Prod.mk.injEq] at hr
            exact hr.2.symm
      rw [hr] at h2
      simp only [bind, Except.bind, pure, Except.pure, Except.ok.injEq, Prod.mk.injEq, Answer.text.injEq] at h2
      rw [h2.1, hrr]

theorem absent_text {ls : List Line} (hk : KindsApart ls) {r : Readable} (ha : After ls [] r) {l : Str}
    (hl : l ≠ [] ∧ '@' ∉ l ∧ l.getLast? ≠ some '=') (hx : occ (texts ls) l = []) : readline r (l ++ ['=']) false = .error .thrown := by
  obtain ⟨g1, g2, g3⟩ := hl
  rw [readline_equal r l g1 g3]
  rcases call_step ls hk [] r ha (.text l false) ⟨g1, g2, g3⟩ with ⟨h1, h2, -⟩ | ⟨a, r', h1, -, -⟩
  · simp only [Call.run] at h2
    cases hr : readline r l false with
    | error e => rw [hr] at h2; cases h2; rfl
    | ok x => rw [hr] at h2; cases h2
  · simp [answer, hx] at h1

theorem gt0_ok : "gt0:GeometryKind".toList ≠ [] ∧ '@' ∉ "gt0:GeometryKind".toList ∧
    ("gt0:GeometryKind".toList).getLast? ≠ some '=' := by decide +kernel
theorem lab_gt0 : "gt0:GeometryKind=".toList = "gt0:GeometryKind".toList ++ ['='] := by decide +kernel

/-- **C95** The mesh is enabled exactly if the first geometry of the file is a star, and reading it takes nothing away from what the
terms of the geometry read afterwards. -/
theorem mesh_file {chk : Check} {ls : List Line} (h : FileOk chk ls) (hk : KindsApart ls) (points : Nat) (kind : Str) (rest : List Str)
    (hx : occ (texts ls) "GeometryKind".toList = kind :: rest) :
    ∃ r g, load chk (render ls) = .ok r ∧ readMesh r points = .ok (g, r) ∧ (g.enabled = true ↔ kind = "star".toList) ∧
      g.meshLength * g.meshLength ≤ points ∧ points < (g.meshLength + 1) * (g.meshLength + 1) ∧
      (0 < points → g.meshStep = 2 * Real.pi / g.meshLength) := by
  obtain ⟨r, e1, hr⟩ := load_ok chk ls h
  have e2 := kept_text hk (after_load ls r hr) (geo_ok _ mem_kind) hx
  rw [← lab_kind] at e2
  refine ⟨r, ⟨Nat.sqrt points, decide (kind = "star".toList), if Nat.sqrt points > 0 then 2 * Real.pi / Nat.sqrt points else 0⟩, e1, ?_,
    decide_eq_true_iff, Nat.sqrt_le points, Nat.lt_succ_sqrt points, ?_⟩
  · unfold readMesh
    rw [e2]
  · intro hp
    exact if_pos (Nat.sqrt_pos.2 hp)

/-- **C95** A file that names no geometry is refused. -/
theorem mesh_no_kind {chk : Check} {ls : List Line} (h : FileOk chk ls) (hk : KindsApart ls) (points : Nat)
    (h1 : occ (texts ls) "GeometryKind".toList = []) (h2 : occ (texts ls) "gt0:GeometryKind".toList = []) :
    ∃ r, load chk (render ls) = .ok r ∧ readMesh r points = .error .thrown := by
  obtain ⟨r, e1, hr⟩ := load_ok chk ls h
  have e2 := absent_text hk (after_load ls r hr) (geo_ok _ mem_kind) h1
  have e3 := absent_text hk (after_load ls r hr) gt0_ok h2
  rw [← lab_kind] at e2
  rw [← lab_gt0] at e3
  refine ⟨r, e1, ?_⟩
  unfold readMesh
  rw [e2]
  simp only []
  rw [e3]

theorem toInt32_small (n : Nat) (h : n < 2 ^ 31) : toInt32 n = n := by
  unfold toInt32
  rw [BitVec.toInt_eq_toNat_of_lt (by rw [BitVec.toNat_ofNat]; omega), BitVec.toNat_ofNat]
  omega

/-- A mesh as made from a file with a star. -/
def Mesh.Made (g : Mesh) : Prop := g.enabled = true ∧ 0 < g.meshLength ∧ g.meshStep = 2 * Real.pi / g.meshLength

/-- **C95** Vector `k` of the mesh is the point of the grid of momenta in row `k / m` and column `k % m`; both components are in
`[-π, π)`. -/
theorem mesh_vector (g : Mesh) (hg : g.Made) (hm : g.meshLength < 2 ^ 31) (n k : Nat) (hn : 2 ≤ n) (hk : k < g.meshLength * g.meshLength)
    (hk2 : k < 2 ^ 31) :
    ∃ x y, g.vector n k = some (x, y) ∧ x = -Real.pi + 2 * Real.pi * ((k / g.meshLength : ℕ) : ℝ) / g.meshLength ∧
      y = -Real.pi + 2 * Real.pi * ((k % g.meshLength : ℕ) : ℝ) / g.meshLength ∧ -Real.pi ≤ x ∧ x < Real.pi ∧ -Real.pi ≤ y ∧ y < Real.pi := by
  obtain ⟨h1, h2, h3⟩ := hg
  obtain ⟨m, en, st⟩ := g
  simp only at h1 h2 h3 hm hk
  subst h1 h3
  have hpi := Real.pi_pos
  have hm0 : (0 : ℝ) < m := by exact_mod_cast h2
  have hb : ∀ a : ℕ, a < m → -Real.pi ≤ -Real.pi + 2 * Real.pi * (a : ℝ) / m ∧ -Real.pi + 2 * Real.pi * (a : ℝ) / m < Real.pi := by
    intro a ha
    have hap : (a : ℝ) < m := by exact_mod_cast ha
    constructor
    · have : 0 ≤ 2 * Real.pi * (a : ℝ) / m := by positivity
      linarith
    · have : 2 * Real.pi * (a : ℝ) / m < 2 * Real.pi := by
        rw [div_lt_iff₀ hm0]
        exact mul_lt_mul_of_pos_left hap (by positivity)
      linarith
  have hq : k / m < m := Nat.div_lt_of_lt_mul hk
  have hr : k % m < m := Nat.mod_lt _ h2
  refine ⟨_, _, ?_, rfl, rfl, (hb _ hq).1, (hb _ hq).2, (hb _ hr).1, (hb _ hr).2⟩
  unfold Mesh.vector
  rw [toInt32_small _ hm, toInt32_small _ hk2, if_neg (by simp only [Bool.true_eq_false, false_or]; omega)]
  have e1 : ((k : Int).tdiv (m : Int)) = ((k / m : ℕ) : Int) := by rw [← Int.ofNat_tdiv]
  have e2 : ((k : Int).tmod (m : Int)) = ((k % m : ℕ) : Int) := by rw [← Int.ofNat_tmod]
  simp only [e1, e2, Int.cast_natCast]
  congr 2
  · ring
  · ring

/-- **C95** Different numbers below the size of the mesh give different vectors. -/
theorem mesh_injective (g : Mesh) (hg : g.Made) (hm : g.meshLength < 2 ^ 31) (n k k' : Nat) (hn : 2 ≤ n)
    (hk : k < g.meshLength * g.meshLength) (hk' : k' < g.meshLength * g.meshLength) (h1 : k < 2 ^ 31) (h2 : k' < 2 ^ 31)
    (h : g.vector n k = g.vector n k') : k = k' := by
  obtain ⟨x, y, e1, ex, ey, -⟩ := mesh_vector g hg hm n k hn hk h1
  obtain ⟨x', y', e2, ex', ey', -⟩ := mesh_vector g hg hm n k' hn hk' h2
  rw [e1, e2] at h
  simp only [Option.some.injEq, Prod.mk.injEq] at h
  have hm0 : (0 : ℝ) < g.meshLength := by exact_mod_cast hg.2.1
  have hpi := Real.pi_pos
  have key : ∀ a b : ℕ, -Real.pi + 2 * Real.pi * (a : ℝ) / g.meshLength = -Real.pi + 2 * Real.pi * (b : ℝ) / g.meshLength → a = b := by
    intro a b hab
    have h3 := add_left_cancel hab
    rw [div_left_inj' hm0.ne'] at h3
    have h4 := mul_left_cancel₀ (by positivity : (2 * Real.pi : ℝ) ≠ 0) h3
    exact_mod_cast h4
  have q1 := key _ _ (ex.symm.trans (h.1.trans ex'))
  have q2 := key _ _ (ey.symm.trans (h.2.trans ey'))
  rw [← Nat.div_add_mod k g.meshLength, ← Nat.div_add_mod k' g.meshLength, q1, q2]

/-- **C95** Every point of the grid is a vector of the mesh, and the size of the mesh is the number of points. -/
theorem mesh_all (g : Mesh) (hg : g.Made) (hm : g.meshLength * g.meshLength ≤ 2 ^ 31) (n a b : Nat) (hn : 2 ≤ n)
    (ha : a < g.meshLength) (hb : b < g.meshLength) :
    g.size = some (g.meshLength * g.meshLength) ∧ ∃ k, k < g.meshLength * g.meshLength ∧
      g.vector n k = some (-Real.pi + 2 * Real.pi * (a : ℝ) / g.meshLength, -Real.pi + 2 * Real.pi * (b : ℝ) / g.meshLength) := by
  have hlt : a * g.meshLength + b < g.meshLength * g.meshLength := by
    calc a * g.meshLength + b < a * g.meshLength + g.meshLength := by omega
      _ = (a + 1) * g.meshLength := by ring
      _ ≤ g.meshLength * g.meshLength := Nat.mul_le_mul_right _ ha
  have hm1 : g.meshLength < 2 ^ 31 := by
    by_contra hc
    have : 2 ^ 31 * 2 ^ 31 ≤ g.meshLength * g.meshLength := Nat.mul_le_mul (by omega) (by omega)
    omega
  constructor
  · unfold Mesh.size
    rw [if_pos hg.1, Nat.mod_eq_of_lt (by omega)]
  · refine ⟨a * g.meshLength + b, hlt, ?_⟩
    obtain ⟨x, y, e, ex, ey, -⟩ := mesh_vector g hg hm1 n _ hn hlt (by omega)
    have e1 : (a * g.meshLength + b) / g.meshLength = a := by
      rw [Nat.add_comm, Nat.add_mul_div_right _ _ hg.2.1, Nat.div_eq_of_lt hb, Nat.zero_add]
    have e2 : (a * g.meshLength + b) % g.meshLength = b := by
      rw [Nat.add_comm, Nat.add_mul_mod_self_right, Nat.mod_eq_of_lt hb]
    rw [e, ex, ey, e1, e2]

/-- Without a star, without points or with a vector that is too short there is no vector of the mesh. -/
theorem mesh_undefined (g : Mesh) (n k : Nat) (h : g.enabled = false ∨ g.meshLength = 0 ∨ n < 2) : g.vector n k = none := by
  unfold Mesh.vector
  refine if_pos ?_
  rcases h with h | h | h
  · exact .inl h
  · exact .inr (.inl (by rw [h]; decide))
  · exact .inr (.inr h)

theorem toInt32_max : toInt32 (2 ^ 31) = -2147483648 := by decide
theorem toInt32_16 : toInt32 65536 = 65536 := by decide

/-- The vectors of a mesh with more than `2 ^ 31` points are not all in `[-π, π)`: with `65536` points in each direction the
number `2 ^ 31`, which is below the size, gives `-2π`. -/
theorem mesh_wide_fails : ∃ g : Mesh, g.Made ∧ g.size = some (65536 * 65536) ∧ 2 ^ 31 < 65536 * 65536 ∧
    ∃ y, g.vector 2 (2 ^ 31) = some (-(2 * Real.pi), y) := by
  refine ⟨⟨65536, true, 2 * Real.pi / 65536⟩, ⟨rfl, by decide, by norm_num⟩, by decide, by decide, ?_⟩
  unfold Mesh.vector
  rw [toInt32_max, toInt32_16, if_neg (by decide)]
  refine ⟨_, congrArg some (Prod.ext ?_ rfl)⟩
  have : Int.tdiv (-2147483648) 65536 = -32768 := by decide
  simp only [this]
  push_cast
  ring

example : (⟨8, true, 2 * Real.pi / 8⟩ : Mesh).Made := ⟨rfl, by decide, by norm_num⟩

/-! ## Sums of momenta of a cluster of two by two sites: momentum `kx + 2 ky` has components `kx, ky ∈ {0, 1}` in units of `π` -/

/-- **C95** With the star and four orbitals sums and differences of momenta are those of the components modulo `2π`. -/
theorem kSum_spec (orbitals : Nat) (label : Str) (h : label = "star".toList ∧ orbitals = 4) (kx ky qx qy : Nat)
    (h1 : kx < 2) (h2 : ky < 2) (h3 : qx < 2) (h4 : qy < 2) :
    kSum (dcaEnabled label orbitals) (kx + 2 * ky) (qx + 2 * qy) = .ok ((kx + qx) % 2 + 2 * ((ky + qy) % 2)) ∧
    ∃ dx dy : Nat, kSustract (dcaEnabled label orbitals) (kx + 2 * ky) (qx + 2 * qy) = .ok (dx + 2 * dy) ∧
      (dx : Int) = ((kx : Int) - qx) % 2 ∧ (dy : Int) = ((ky : Int) - qy) % 2 := by
  obtain ⟨rfl, rfl⟩ := h
  have e : dcaEnabled "star".toList 4 = true := by decide
  rw [e]
  have key : ∀ kx ky qx qy : Fin 2, (kx.1 + 2 * ky.1) ^^^ (qx.1 + 2 * qy.1) = (kx.1 + qx.1) % 2 + 2 * ((ky.1 + qy.1) % 2) := by decide
  have k1 := key ⟨kx, h1⟩ ⟨ky, h2⟩ ⟨qx, h3⟩ ⟨qy, h4⟩
  simp only at k1
  refine ⟨?_, (kx + qx) % 2, (ky + qy) % 2, ?_, by omega, by omega⟩
  · unfold kSum
    rw [if_pos rfl, k1]
  · unfold kSustract
    rw [if_pos rfl, k1]

/-- **C95** Differences undo sums, for all numbers; sums are commutative and associative and zero is neutral. -/
theorem kSum_group (k q s : Nat) :
    (kSum true k q >>= fun x => kSustract true x q) = .ok k ∧ kSum true k q = kSum true q k ∧ kSum true k 0 = .ok k ∧
    (kSum true k q >>= fun x => kSum true x s) = (kSum true q s >>= fun x => kSum true k x) := by
  refine ⟨?_, ?_, ?_, ?_⟩
  · show kSustract true (k ^^^ q) q = .ok k
    unfold kSustract
    rw [if_pos rfl, Nat.xor_assoc, Nat.xor_self, Nat.xor_zero]
  · unfold kSum
    rw [Nat.xor_comm]
  · unfold kSum
    rw [Nat.xor_zero, if_pos rfl]
  · show kSum true (k ^^^ q) s = kSum true k (q ^^^ s)
    unfold kSum
    rw [Nat.xor_assoc]

/-- **C95** For any other geometry or number of orbitals an exception is thrown. -/
theorem kSum_other (label : Str) (orbitals k1 k2 : Nat) (h : label ≠ "star".toList ∨ orbitals ≠ 4) :
    kSum (dcaEnabled label orbitals) k1 k2 = .error .thrown ∧ kSustract (dcaEnabled label orbitals) k1 k2 = .error .thrown := by
  have e : dcaEnabled label orbitals = false := by
    unfold dcaEnabled
    rcases h with h | h
    · rw [decide_eq_false h, Bool.false_and]
    · rw [beq_eq_false_iff_ne.2 h, Bool.and_false]
  rw [e]
  exact ⟨rfl, rfl⟩

/-- Numbers that are no momenta of the cluster are not refused. -/
theorem kSum_range_fails : ∃ k q x, kSum (dcaEnabled "star".toList 4) k q = .ok x ∧ ¬x < 4 := ⟨4, 1, 5, by decide, by decide⟩

/-- **C95** Dimension and symmetry of a mesh: two dimensions, one operation, which leaves every momentum where it is; asking for
them without a mesh is undefined. -/
theorem mesh_symmetry (g : Mesh) (j op : Nat) :
    (g.enabled = true → g.dimension = some 2 ∧ g.nGroupK = some 1 ∧ g.ickequ j op = some j) ∧
    (g.enabled = false → g.dimension = none ∧ g.nGroupK = none ∧ g.ickequ j op = none) := by
  constructor <;> intro h <;> simp [Mesh.dimension, Mesh.nGroupK, Mesh.ickequ, h]

/-! ## Cases -/

theorem mesh8_made : (⟨8, true, 2 * Real.pi / 8⟩ : Mesh).Made := ⟨rfl, by decide, by norm_num⟩

example := mesh_vector ⟨8, true, 2 * Real.pi / 8⟩ mesh8_made (by norm_num) 2 13 (by decide) (by norm_num) (by norm_num)
example := mesh_all ⟨8, true, 2 * Real.pi / 8⟩ mesh8_made (by norm_num) 2 3 5 (by decide) (by norm_num) (by norm_num)
example (h : (⟨8, true, 2 * Real.pi / 8⟩ : Mesh).vector 2 13 = (⟨8, true, 2 * Real.pi / 8⟩ : Mesh).vector 2 14) : False := by
  have := mesh_injective ⟨8, true, 2 * Real.pi / 8⟩ mesh8_made (by norm_num) 2 13 14 (by decide) (by norm_num) (by norm_num) (by norm_num) (by norm_num) h
  omega
example : (⟨0, true, 0⟩ : Mesh).vector 2 0 = none := mesh_undefined _ _ _ (.inr (.inl rfl))
example := kSum_other "chain".toList 4 1 2 (.inl (by decide))
example := kSum_spec 4 "star".toList ⟨rfl, rfl⟩ 1 0 1 1 (by decide) (by decide) (by decide) (by decide)

end Verif.Geom
