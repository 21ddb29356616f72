import Mathlib.Data.Fintype.EquivFin
import Mathlib.Data.Fintype.Card
import Mathlib.Tactic.Ring
import Mathlib.Tactic.Linarith
import Verif.Random.Model48

/-!
# Property C94: random numbers of the C library

Range and period of the numbers, seeds of processes, and vectors filled at random.
-/

namespace Verif.Random

/-- `2^k` steps of an affine map whose slope is 1 modulo 4 and whose constant is odd move every number by an odd
multiple of `2^k`. -/
theorem affine_steps (a c : ℤ) (ha : a % 4 = 1) (hc : c % 2 = 1) (k : Nat) :
    ∃ A C : ℤ, (∀ x, (fun y => a * y + c)^[2 ^ k] x = A * x + C) ∧ A % 4 = 1 ∧
      (∃ u, C = 2 ^ k * u ∧ u % 2 = 1) ∧ ∃ w, A - 1 = 2 ^ k * (2 * w) := by
  induction k with
  | zero =>
    refine ⟨a, c, fun x => rfl, ha, ⟨c, by simp, hc⟩, (a - 1) / 2, ?_⟩
    simp; omega
  | succ k ih =>
    obtain ⟨A, C, h1, h2, ⟨u, h3, h4⟩, w, h5⟩ := ih
    refine ⟨A * A, A * C + C, ?_, ?_, ?_, ?_⟩
    · intro x
      rw [pow_succ, Nat.mul_two, Function.iterate_add_apply, h1, h1]
      ring
    · have : A = 4 * (A / 4) + 1 := by omega
      rw [this]
      have e : (4 * (A / 4) + 1) * (4 * (A / 4) + 1) = 1 + 4 * (4 * (A / 4) * (A / 4) + 2 * (A / 4)) := by ring
      rw [e]
      omega
    · obtain ⟨b, hb⟩ : ∃ b, A = 4 * b + 1 := ⟨A / 4, by omega⟩
      obtain ⟨d, hd⟩ : ∃ d, u = 2 * d + 1 := ⟨u / 2, by omega⟩
      refine ⟨u * (2 * b + 1), ?_, ?_⟩
      · rw [h3, hb, pow_succ]; ring
      · rw [hd]
        have : (2 * d + 1) * (2 * b + 1) = 1 + 2 * (2 * d * b + d + b) := by ring
        omega
    · obtain ⟨b, hb⟩ : ∃ b, A = 4 * b + 1 := ⟨A / 4, by omega⟩
      refine ⟨w * (2 * b + 1), ?_⟩
      have : A * A - 1 = (A - 1) * (A + 1) := by ring
      rw [this, h5, hb, pow_succ]; ring

/-- Steps of the affine map, modulo `2^n`: back at the start exactly after multiples of `2^n`. -/
theorem affine_period (a c : ℤ) (ha : a % 4 = 1) (hc : c % 2 = 1) (n m : Nat) (x : ℤ) :
    ((2 : ℤ) ^ n ∣ (fun y => a * y + c)^[m] x - x) ↔ 2 ^ n ∣ m := by
  set f : ℤ → ℤ := fun y => a * y + c with hf
  have hcong : ∀ (m : Nat) (N x y : ℤ), N ∣ x - y → N ∣ f^[m] x - f^[m] y := by
    intro m N
    induction m with
    | zero => intro x y h; exact h
    | succ m ih =>
      intro x y h
      rw [Function.iterate_succ_apply, Function.iterate_succ_apply]
      apply ih
      have : f x - f y = a * (x - y) := by simp only [hf]; ring
      rw [this]
      exact Dvd.dvd.mul_left h a
  have hmove : ∀ k x, ∃ u, f^[2 ^ k] x = x + 2 ^ k * u ∧ u % 2 = 1 := by
    intro k x
    obtain ⟨A, C, h1, -, ⟨u, h3, h4⟩, w, h5⟩ := affine_steps a c ha hc k
    refine ⟨2 * (w * x) + u, ?_, by omega⟩
    rw [h1, h3]
    have : A = 1 + 2 ^ k * (2 * w) := by linarith
    rw [this]; ring
  -- multiples
  have hmult : ∀ k q x, (2 : ℤ) ^ k ∣ f^[2 ^ k * q] x - x := by
    intro k q
    induction q with
    | zero => intro x; simp
    | succ q ih =>
      intro x
      rw [Nat.mul_succ, Function.iterate_add_apply]
      obtain ⟨u, h, -⟩ := hmove k x
      have h1 := ih (f^[2 ^ k] x)
      have : f^[2 ^ k * q] (f^[2 ^ k] x) - x = (f^[2 ^ k * q] (f^[2 ^ k] x) - f^[2 ^ k] x) + 2 ^ k * u := by
        rw [h]; ring
      rw [this]
      exact dvd_add h1 (Dvd.intro _ rfl)
  constructor
  · intro h
    -- induct on n
    have key : ∀ k ≤ n, 2 ^ k ∣ m := by
      intro k
      induction k with
      | zero => intro _; simp
      | succ k ih =>
        intro hk
        obtain ⟨q, rfl⟩ := ih (by omega)
        rcases Nat.even_or_odd' q with ⟨r, rfl | rfl⟩
        · exact ⟨r, by rw [pow_succ]; ring⟩
        · exfalso
          have h1 : (2 : ℤ) ^ (k + 1) ∣ f^[2 ^ k * (2 * r + 1)] x - x :=
            dvd_trans (pow_dvd_pow 2 hk) h
          have h2 : f^[2 ^ k * (2 * r + 1)] x = f^[2 ^ (k + 1) * r] (f^[2 ^ k] x) := by
            rw [← Function.iterate_add_apply]
            congr 1
            rw [pow_succ]; ring
          rw [h2] at h1
          have h3 := hmult (k + 1) r (f^[2 ^ k] x)
          have h4 : (2 : ℤ) ^ (k + 1) ∣ f^[2 ^ k] x - x := by
            have := dvd_sub h1 h3
            rwa [sub_sub_sub_cancel_left] at this
          obtain ⟨u, h5, h6⟩ := hmove k x
          rw [h5, add_sub_cancel_left, pow_succ] at h4
          have : (2 : ℤ) ∣ u := Int.dvd_of_mul_dvd_mul_left (by positivity) h4
          omega
    exact key n le_rfl
  · rintro ⟨q, rfl⟩
    exact hmult n q x

/-- The generator, as an affine map modulo `2^48`. -/
theorem lcg_affine (m x : Nat) :
    (281474976710656 : ℤ) ∣ (fun y : ℤ => 25214903917 * y + 11)^[m] (x : ℤ) - (lcg^[m] x : ℕ) := by
  induction m with
  | zero => simp
  | succ m ih =>
    rw [Function.iterate_succ_apply', Function.iterate_succ_apply']
    obtain ⟨q, hq⟩ := ih
    have h1 : (lcg (lcg^[m] x) : ℤ) = 25214903917 * (lcg^[m] x : ℕ) + 11 -
        281474976710656 * ((25214903917 * (lcg^[m] x : ℕ) + 11) / 281474976710656) := by
      unfold lcg
      push_cast
      rw [Int.emod_def]
    have h2 : (fun y : ℤ => 25214903917 * y + 11)^[m] (x : ℤ) = 281474976710656 * q + (lcg^[m] x : ℕ) := by omega
    refine ⟨25214903917 * q + (25214903917 * (lcg^[m] x : ℕ) + 11) / 281474976710656, ?_⟩
    rw [h1]
    simp only [h2]
    ring

theorem lcg_lt (x : Nat) : lcg x < 281474976710656 := Nat.mod_lt _ (by decide)

theorem lcg_iter_lt (m x : Nat) (hx : x < 281474976710656) : lcg^[m] x < 281474976710656 := by
  cases m with
  | zero => exact hx
  | succ m => rw [Function.iterate_succ_apply']; exact lcg_lt _

/-- The state comes back exactly after multiples of `2^48` numbers: no stream of fewer numbers repeats. -/
theorem drand48_period (x : Nat) (hx : x < 2 ^ 48) (m : Nat) : lcg^[m] x = x ↔ 2 ^ 48 ∣ m := by
  have hpow : (2 : ℤ) ^ 48 = 281474976710656 := by norm_num
  have h := affine_period 25214903917 11 (by norm_num) (by norm_num) 48 m x
  rw [← h, hpow]
  have h1 := lcg_affine m x
  have h2 := lcg_iter_lt m x (by norm_num at hx; exact hx)
  norm_num at hx
  constructor
  · intro e
    rw [e] at h1
    exact h1
  · intro h3
    have h4 := dvd_sub h3 h1
    rw [sub_sub_sub_cancel_left] at h4
    omega

/-- All states are met: from any state any other one is reached in less than `2^48` numbers. -/
theorem drand48_all (x y : Nat) (hx : x < 2 ^ 48) (hy : y < 2 ^ 48) : ∃ m < 2 ^ 48, lcg^[m] x = y := by
  have hlt : ∀ m, lcg^[m] x < 2 ^ 48 := fun m => by
    have := lcg_iter_lt m x (by norm_num at hx; exact hx)
    norm_num; exact this
  let g : Fin (2 ^ 48) → Fin (2 ^ 48) := fun m => ⟨lcg^[m.1] x, hlt m.1⟩
  have key : ∀ i j : Nat, i ≤ j → j < 2 ^ 48 → lcg^[i] x = lcg^[j] x → i = j := by
    intro i j hij hj e
    have h1 : lcg^[j - i] (lcg^[i] x) = lcg^[i] x := by
      rw [← Function.iterate_add_apply, show j - i + i = j by omega]; exact e.symm
    have h2 := (drand48_period _ (hlt i) (j - i)).1 h1
    by_contra hne
    have := Nat.le_of_dvd (by omega) h2
    omega
  have hinj : Function.Injective g := by
    intro i j e
    have e' : lcg^[i.1] x = lcg^[j.1] x := congrArg Fin.val e
    apply Fin.ext
    rcases Nat.le_total i.1 j.1 with h | h
    · exact key _ _ h j.2 e'
    · exact (key _ _ h i.2 e'.symm).symm
  obtain ⟨m, hm⟩ := (Finite.injective_iff_surjective.1 hinj) ⟨y, hy⟩
  exact ⟨m.1, m.2, congrArg Fin.val hm⟩

theorem drands_length (n x : Nat) : (drands n x).1.length = n := by
  induction n generalizing x with
  | zero => rfl
  | succ n ih => simp [drands, ih]

theorem drands_get (n x k : Nat) (hk : k < n) :
    (drands n x).1[k]? = some ((lcg^[k + 1] x : ℕ) / 281474976710656 : ℚ) := by
  induction n generalizing x k with
  | zero => omega
  | succ n ih =>
    cases k with
    | zero => simp only [drands, drand48, List.getElem?_cons_zero, zero_add, Function.iterate_one]
    | succ k =>
      simp only [drands, List.getElem?_cons_succ]
      rw [ih _ k (by omega)]
      simp only [drand48, Function.iterate_succ_apply]

/-- Numbers are at least zero, below one, and multiples of `2^-48`. -/
theorem drand48_range (n x : Nat) : ∀ r ∈ (drands n x).1, 0 ≤ r ∧ r < 1 ∧ ∃ k : Nat, r = k / 2 ^ 48 := by
  intro r hr
  obtain ⟨k, hk⟩ := List.mem_iff_getElem?.1 hr
  have hlt : k < n := by
    have := (List.getElem?_eq_some_iff.1 hk).1
    rwa [drands_length] at this
  rw [drands_get n x k hlt, Function.iterate_succ_apply'] at hk
  have h := lcg_lt (lcg^[k] x)
  rw [← Option.some.inj hk]
  refine ⟨by positivity, ?_, lcg (lcg^[k] x), by norm_num⟩
  rw [div_lt_one (by norm_num)]
  exact_mod_cast h

/-- What is assumed of the rounding of a product: it keeps order, and integers. -/
structure Rounding (rnd : ℚ → ℚ) : Prop where
  mono : Monotone rnd
  int : ∀ n : Nat, n ≤ 10000 → rnd n = n

theorem seed_range (rnd : ℚ → ℚ) (hr : Rounding rnd) (q : ℚ) (h0 : 0 ≤ q) (h1 : q ≤ 1) :
    0 ≤ ⌊rnd (10000 * q)⌋ ∧ ⌊rnd (10000 * q)⌋ ≤ 10000 := by
  constructor
  · have h4 := hr.mono (show ((0 : Nat) : ℚ) ≤ 10000 * q by push_cast; linarith)
    have h5 := hr.int 0 (Nat.zero_le _)
    refine Int.floor_nonneg.2 (le_trans ?_ h4)
    rw [h5]
    simp
  · have h4 := hr.mono (show 10000 * q ≤ ((10000 : Nat) : ℚ) by push_cast; linarith)
    have h5 : rnd ((10000 : Nat) : ℚ) = ((10000 : Nat) : ℚ) := hr.int _ (Nat.le_refl _)
    have h6 : (⌊rnd (10000 * q)⌋ : ℚ) ≤ ((10000 : Nat) : ℚ) := le_trans (Int.floor_le _) (h5 ▸ h4)
    exact_mod_cast h6

theorem make48_spec (rnd : ℚ → ℚ) (hr : Rounding rnd) (seed : Int) (rank nprocs : Nat) (h : rank < nprocs) :
    ∃ s : Int, make48 rnd seed rank nprocs = some (s, srand48 s) ∧ 0 ≤ s ∧ s ≤ 10000 := by
  have e := drands_get nprocs (srand48 seed) rank h
  have hm := drand48_range nprocs (srand48 seed) _ (List.mem_of_getElem? e)
  generalize ((lcg^[rank + 1] (srand48 seed) : ℕ) / 281474976710656 : ℚ) = q at e hm
  refine ⟨⌊rnd (10000 * q)⌋, ?_, seed_range rnd hr q hm.1 hm.2.1.le⟩
  unfold make48
  simp only [List.getElem?_map, e, Option.map_some, Option.bind_eq_bind, Option.bind_some]
  rfl

/-- A rank that is not below the number of processes is undefined. -/
theorem make48_rank (rnd : ℚ → ℚ) (seed : Int) (rank nprocs : Nat) :
    make48 rnd seed rank nprocs = none ↔ nprocs ≤ rank := by
  have hl := drands_length nprocs (srand48 seed)
  unfold make48
  generalize (drands nprocs (srand48 seed)).1 = l at hl
  subst hl
  simp only [List.getElem?_map]
  by_cases h : rank < l.length
  · simp [List.getElem?_eq_getElem h, h]
  · simp [List.getElem?_eq_none (Nat.le_of_not_lt h), Nat.le_of_not_lt h]

/-- The generators of different processes are not always different: with more than 10001 processes, whatever the
seed, two of them have the same seed and so the same numbers. -/
theorem make48_collide_fails (rnd : ℚ → ℚ) (hr : Rounding rnd) (seed : Int) (nprocs : Nat) (hn : 10001 < nprocs) :
    ∃ i j, i < j ∧ j < nprocs ∧ make48 rnd seed i nprocs = make48 rnd seed j nprocs := by
  have hs : ∀ i : Fin nprocs, ∃ s : Fin 10001, make48 rnd seed i nprocs = some ((s.1 : Int), srand48 s.1) := by
    intro i
    obtain ⟨s, h1, h2, h3⟩ := make48_spec rnd hr seed i nprocs i.2
    refine ⟨⟨s.toNat, by omega⟩, ?_⟩
    rw [h1]
    simp only [Int.toNat_of_nonneg h2]
  choose f hf using hs
  obtain ⟨i, j, hne, e⟩ := Fintype.exists_ne_map_eq_of_card_lt f (by simpa using hn)
  have he : make48 rnd seed i nprocs = make48 rnd seed j nprocs := by rw [hf i, hf j, e]
  rcases Nat.lt_or_gt_of_ne (fun h => hne (Fin.ext h)) with h | h
  · exact ⟨i, j, h, j.2, he⟩
  · exact ⟨j, i, h, i.2, he.symm⟩

/-- There are few streams: whatever the seeds, ranks and numbers of processes, the state after construction is one
of 10001. -/
theorem make48_streams (rnd : ℚ → ℚ) (hr : Rounding rnd) :
    ∃ L : List Nat, L.length ≤ 10001 ∧ ∀ seed rank nprocs g, make48 rnd seed rank nprocs = some g → g.2 ∈ L := by
  refine ⟨(List.range 10001).map fun (k : Nat) => srand48 k, by simp, ?_⟩
  intro seed rank nprocs g hg
  have hlt : rank < nprocs := by
    by_contra h
    rw [(make48_rank rnd seed rank nprocs).2 (by omega)] at hg
    cases hg
  obtain ⟨s, h1, h2, h3⟩ := make48_spec rnd hr seed rank nprocs hlt
  rw [h1] at hg
  cases hg
  refine List.mem_map.2 ⟨s.toNat, List.mem_range.2 (by omega), ?_⟩
  rw [Int.toNat_of_nonneg h2]

/-- The first number after `srand48` is never one half (nor any other number whose last bit is zero). -/
theorem first_odd (seed : Int) : lcg (srand48 seed) % 2 = 1 := by
  unfold lcg srand48
  omega

/-- `fillRandom` fails only for an empty vector, and otherwise gives a vector of length one: its sum of squares is
never zero, at whatever time. -/
theorem fillRandom_unit (rnd : ℚ → ℚ) (hr : Rounding rnd) (now : Int) (n : Nat) (hn : 0 < n) :
    ∃ v : List ℝ, fillRandom rnd now n = some v ∧ v.length = n ∧ (v.map fun x => x * x).sum = 1 ∧ ∃ x ∈ v, x ≠ 0 := by
  obtain ⟨s, h1, -, -⟩ := make48_spec rnd hr now 0 1 (by omega)
  unfold fillRandom
  rw [if_neg (by omega), h1]
  set v := (drands n (srand48 s)).1.map fun (r : ℚ) => ((r : ℝ) - 0.5) with hv
  have hmem : ∃ x ∈ v, x ≠ 0 := by
    have e := drands_get n (srand48 s) 0 hn
    refine ⟨_, List.mem_map.2 ⟨_, List.mem_of_getElem? e, rfl⟩, ?_⟩
    have hodd := first_odd s
    simp only [zero_add, Function.iterate_one]
    generalize lcg (srand48 s) = k at hodd
    intro h
    rw [Rat.cast_div, Rat.cast_natCast, Rat.cast_ofNat] at h
    have h2 : (k : ℝ) = 140737488355328 := by
      have e5 : (0.5 : ℝ) = 1 / 2 := by norm_num
      rw [e5] at h
      linarith
    have h3 : k = 140737488355328 := by exact_mod_cast h2
    omega
  have hpos : 0 < (v.map fun x => x * x).sum := by
    obtain ⟨x, hx, hne⟩ := hmem
    have hall : ∀ y ∈ v.map (fun x => x * x), 0 ≤ y := by
      intro y hy
      obtain ⟨z, -, rfl⟩ := List.mem_map.1 hy
      exact mul_self_nonneg z
    have := List.single_le_sum hall (x * x) (List.mem_map.2 ⟨x, hx, rfl⟩ : x * x ∈ v.map fun x => x * x)
    have h2 : 0 < x * x := mul_self_pos.2 hne
    linarith
  refine ⟨v.map fun x => x * (1.0 / Real.sqrt (v.map fun x => x * x).sum), rfl, ?_, ?_, ?_⟩
  · simp [hv, drands_length]
  · rw [List.map_map]
    have e : ((fun x : ℝ => x * x) ∘ fun x => x * (1.0 / Real.sqrt (v.map fun x => x * x).sum)) =
        fun x => (x * x) * (1 / (v.map fun x => x * x).sum) := by
      funext x
      simp only [Function.comp]
      have h3 := Real.mul_self_sqrt hpos.le
      have h4 : Real.sqrt (v.map fun x => x * x).sum ≠ 0 := by
        intro h0
        rw [h0] at h3
        linarith
      have e2 : (1.0 : ℝ) = 1 := by norm_num
      rw [e2]
      conv_rhs => rw [← h3]
      field_simp
    rw [e, List.sum_map_mul_right]
    exact mul_one_div_cancel hpos.ne'
  · obtain ⟨x, hx, hne⟩ := hmem
    refine ⟨_, List.mem_map.2 ⟨x, hx, rfl⟩, ?_⟩
    have : 0 < Real.sqrt (v.map fun x => x * x).sum := Real.sqrt_pos.2 hpos
    have e2 : (1.0 : ℝ) = 1 := by norm_num
    rw [e2]
    exact mul_ne_zero hne (by positivity)

theorem fillRandom_empty (rnd : ℚ → ℚ) (now : Int) : fillRandom rnd now 0 = none := by
  unfold fillRandom; simp

/-- No rounding at all is a rounding. -/
example : Rounding id := ⟨monotone_id, fun _ _ => rfl⟩
example : (make48 id 5 1 3).isSome := by decide +kernel
example : lcg (srand48 5) % 2 = 1 := by decide +kernel

/-- Objects share the state: a second object made with the same arguments makes the first one start again. -/
theorem objects_share_fails (rnd : ℚ → ℚ) (hr : Rounding rnd) (seed : Int) :
    ∃ r p1 p2 p3 p4, call48 rnd ⟨[], 0⟩ (.new seed 0 1) = some (none, p1) ∧ call48 rnd p1 (.draw 0) = some (some r, p2) ∧
      call48 rnd p2 (.new seed 0 1) = some (none, p3) ∧ call48 rnd p3 (.draw 0) = some (some r, p4) := by
  obtain ⟨s, h1, -, -⟩ := make48_spec rnd hr seed 0 1 (by omega)
  refine ⟨(drand48 (srand48 s)).1, ⟨[s], srand48 s⟩, ⟨[s], (drand48 (srand48 s)).2⟩, ⟨[s, s], srand48 s⟩,
    ⟨[s, s], (drand48 (srand48 s)).2⟩, ?_, ?_, ?_, ?_⟩ <;> simp [call48, h1]

/-- `seed(s)` does not seed: the numbers after it are those without it. -/
theorem set_seed_fails (rnd : ℚ → ℚ) (p : Prog48) (i : Nat) (s : Int) (hi : i < p.seeds.length) :
    ∃ p', call48 rnd p (.set i s) = some (none, p') ∧ p'.state = p.state :=
  ⟨{ p with seeds := p.seeds.set i s }, by simp only [call48, if_pos hi], rfl⟩

/-! ## Concrete cases of the hypotheses: arithmetic without rounding. -/

theorem exact_rounding : Rounding id := ⟨monotone_id, fun _ _ => rfl⟩

example := drand48_all 5 77 (by decide) (by decide)
example := drand48_period 5 (by decide) 12
example := make48_spec id exact_rounding 5 1 3 (by decide)
example := make48_collide_fails id exact_rounding 5 20000 (by decide)
example := make48_streams id exact_rounding
example := fillRandom_unit id exact_rounding 5 10 (by decide)
example := objects_share_fails id exact_rounding 5
example := set_seed_fails id ⟨[3, 4], 5⟩ 1 9 (by decide)

end Verif.Random
