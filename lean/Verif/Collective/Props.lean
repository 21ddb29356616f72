import Verif.Collective.Model
import Mathlib.Algebra.BigOperators.Group.List.Basic
import Mathlib.Algebra.Group.Prod
import Mathlib.Algebra.Ring.Int.Defs

/-!
# C76: collective operations

The ranks are `0`, ..., `world.length - 1`.
-/

namespace Verif.Collective

open Verif.Loop

variable {α : Type}

theorem toInt_small {n : Nat} (h : n < 2 ^ 31) : toInt n = n := by
  unfold toInt
  exact Int.bmod_eq_of_le (by omega) (by omega)

theorem sameLength_iff (world : List (List α)) : sameLength world = true ↔ ∃ n, ∀ v ∈ world, v.length = n := by
  cases world with
  | nil => simp [sameLength]
  | cons b bs =>
    simp only [sameLength, List.all_eq_true, beq_iff_eq]
    constructor
    · intro h
      exact ⟨b.length, fun v hv => by
        rcases List.mem_cons.1 hv with rfl | hv
        · rfl
        · exact h v hv⟩
    · rintro ⟨n, h⟩ x hx
      rw [h x (List.mem_cons_of_mem _ hx), h b List.mem_cons_self]

theorem mpiBcast_spec {root n : Nat} {world : List (List α)} {b : List α} (hn : ∀ v ∈ world, v.length = n) (hb : world[root]? = some b)
    (h : n < 2 ^ 31) : mpiBcast root world = .ok (List.replicate world.length b) := by
  have hl : b.length = n := hn b (List.mem_of_getElem? hb)
  unfold mpiBcast
  rw [if_pos ((sameLength_iff world).2 ⟨n, hn⟩), hb]
  simp only [hl, toInt_small h]
  rw [if_neg (by omega)]
  congr 1
  rw [List.eq_replicate_iff]
  refine ⟨by simp, ?_⟩
  intro v hv
  obtain ⟨u, hu, rfl⟩ := List.mem_map.1 hv
  rw [Int.toNat_natCast, List.take_of_length_le (by omega), List.drop_of_length_le (by rw [hn u hu]), List.append_nil]

theorem bcastOne_spec {root : Nat} {world : List α} {x : α} (hx : world[root]? = some x) :
    bcastOne root world = .ok (List.replicate world.length x) := by
  unfold bcastOne
  rw [mpiBcast_spec (n := 1) (b := [x]) (by intro v hv; obtain ⟨u, -, rfl⟩ := List.mem_map.1 hv; rfl) (by rw [List.getElem?_map, hx]; rfl)
    (by omega)]
  simp only [bind, Except.bind, pure, Except.pure, List.length_map]
  congr 1
  induction world.length with
  | zero => rfl
  | succ k ih => rw [List.replicate_succ, List.flatten_cons, ih]; rfl

/-- **C76** `bcast` of a number: all ranks get the number of the root. -/
theorem bcast_spec {root : Nat} {world : List α} {x : α} (hx : world[root]? = some x) :
    bcast root world = .ok (List.replicate world.length x) := bcastOne_spec hx

/-- **C76** `bcast` of a pair. -/
theorem bcastPair_spec {β : Type} {root : Nat} {world : List (α × β)} {x : α × β} (hx : world[root]? = some x) :
    bcastPair root world = .ok (List.replicate world.length x) := by
  unfold bcastPair
  rw [bcastOne_spec (x := x.1) (by rw [List.getElem?_map, hx]; rfl), bcastOne_spec (x := x.2) (by rw [List.getElem?_map, hx]; rfl)]
  simp only [bind, Except.bind, pure, Except.pure, List.length_map, List.zip_replicate', Prod.mk.eta]

theorem bcastSized {root : Nat} [Zero α] {world : List (List α)} {b : List α} (hb : world[root]? = some b) (h : b.length < 2 ^ 31)
    (f : List α → List α) (hf : ∀ v, (f v).length = b.length) (hfb : f b = b) :
    mpiBcast root (world.map f) = .ok (List.replicate world.length b) := by
  have := mpiBcast_spec (root := root) (n := b.length) (world := world.map f) (b := b)
    (by intro v hv; obtain ⟨u, -, rfl⟩ := List.mem_map.1 hv; exact hf u) (by rw [List.getElem?_map, hb, Option.map_some, hfb]) h
  rwa [List.length_map] at this

/-- **C76** `bcast` of a vector: all ranks get the vector of the root, whatever size theirs had. -/
theorem bcastVec_spec [Zero α] {root : Nat} {world : List (List α)} {b : List α} (hb : world[root]? = some b) (h : b.length < 2 ^ 31) :
    bcastVec root world = .ok (List.replicate world.length b) := by
  unfold bcastVec
  rw [bcastOne_spec (x := b.length) (by rw [List.getElem?_map, hb]; rfl)]
  simp only [bind, Except.bind, List.length_map]
  have e : List.zipWith (fun (v : List α) total => if total ≠ v.length then resizeL v total 0 else v) world
      (List.replicate world.length b.length) = world.map fun v => if b.length ≠ v.length then resizeL v b.length 0 else v := by
    apply List.ext_getElem
    · simp
    · intro i h1 h2
      simp
  rw [e]
  refine bcastSized hb h _ (fun v => ?_) (by simp)
  by_cases e : b.length = v.length
  · simp [e]
  · simp [e, resizeL_length]

theorem flat_length (v : List (α × α)) : (flat v).length = 2 * v.length := by
  induction v with
  | nil => rfl
  | cons x t ih =>
    have : flat (x :: t) = x.1 :: x.2 :: flat t := rfl
    rw [this]
    simp [ih]
    omega

theorem unflat_flat (v : List (α × α)) : unflat (flat v) = v := by
  induction v with
  | nil => rfl
  | cons x t ih =>
    have : flat (x :: t) = x.1 :: x.2 :: flat t := rfl
    rw [this, unflat, ih]

/-- **C76** `bcast` of a vector of complex numbers, if all ranks have the size of the root. -/
theorem bcastComplex_spec {root n : Nat} {world : List (List (α × α))} {b : List (α × α)} (hb : world[root]? = some b)
    (hn : ∀ v ∈ world, v.length = n) (h : n < 2 ^ 30) : bcastComplex root world = .ok (List.replicate world.length b) := by
  unfold bcastComplex
  rw [mpiBcast_spec (n := 2 * n) (b := flat b)
    (by intro v hv; obtain ⟨u, hu, rfl⟩ := List.mem_map.1 hv; rw [flat_length, hn u hu]) (by rw [List.getElem?_map, hb]; rfl) (by omega)]
  simp only [bind, Except.bind, pure, Except.pure, List.map_replicate, unflat_flat, List.length_map]

/-- **C76** The size of a vector of complex numbers is not sent: with another size on some rank the call is not valid. -/
theorem bcastComplex_fails {root : Nat} {world : List (List (α × α))} {u v : List (α × α)} (hu : u ∈ world) (hv : v ∈ world)
    (h : u.length ≠ v.length) : bcastComplex root world = ubOut := by
  have : sameLength (world.map flat) ≠ true := by
    rw [Ne, sameLength_iff]
    rintro ⟨n, hn⟩
    have h1 := hn _ (List.mem_map_of_mem (f := flat) hu)
    have h2 := hn _ (List.mem_map_of_mem (f := flat) hv)
    rw [flat_length] at h1 h2
    omega
  unfold bcastComplex mpiBcast
  rw [if_neg this]
  rfl

theorem mapM_ok {β γ : Type} (f : β → Out γ) (g : β → γ) (l : List β) (h : ∀ x ∈ l, f x = .ok (g x)) : l.mapM f = .ok (l.map g) := by
  induction l with
  | nil => rfl
  | cons x t ih =>
    rw [List.mapM_cons, h x List.mem_cons_self, ih fun y hy => h y (List.mem_cons_of_mem _ hy)]
    rfl

theorem bcastRound_any [Zero α] {root r : Nat} {column : List (List α)} {b : List α} (hb : column[root]? = some b)
    (hr : toInt b.length = r) (h : r < 2 ^ 31) : bcastRound root column = .ok (List.replicate column.length (resizeL b r 0)) := by
  have hres : ∀ v : List α, resizeTo v (r : Int) = .ok (resizeL v r 0) := by
    intro v
    unfold resizeTo
    rw [if_neg (Int.not_lt.2 (Int.natCast_nonneg r)), Int.toNat_natCast]
    refine congrArg Except.ok ?_
    by_cases e : r = v.length
    · rw [if_neg (fun h => h e), e, resizeL_self]
    · rw [if_pos e]
  have hz : (column.zip (List.replicate column.length (r : Int))).mapM (fun x => resizeTo x.1 x.2) =
      .ok (column.map fun v => resizeL v r 0) := by
    rw [mapM_ok _ (fun x => resizeL x.1 r 0)]
    · refine congrArg Except.ok ?_
      apply List.ext_getElem
      · simp
      · intro i h1 h2
        simp
    · intro x hx
      have := (List.of_mem_zip (a := x.1) (b := x.2) hx).2
      rw [List.mem_replicate] at this
      rw [this.2]
      exact hres _
  unfold bcastRound
  rw [bcastOne_spec (x := (r : Int)) (by rw [List.getElem?_map, hb, ← hr]; rfl), List.length_map]
  simp only [bind, Except.bind]
  rw [hz]
  have := mpiBcast_spec (root := root) (n := r) (world := column.map fun v => resizeL v r 0) (b := resizeL b r 0) (by
    intro u hu
    obtain ⟨v, -, rfl⟩ := List.mem_map.1 hu
    exact resizeL_length _ _ _) (by rw [List.getElem?_map, hb]; rfl) h
  rw [List.length_map] at this
  exact this

theorem bcastRound_spec [Zero α] {root : Nat} {column : List (List α)} {b : List α} (hb : column[root]? = some b) (h : b.length < 2 ^ 31) :
    bcastRound root column = .ok (List.replicate column.length b) := by
  rw [bcastRound_any hb (toInt_small h) h, resizeL_self]

/-- **C76** `bcast` of a vector of vectors: all ranks get the vectors of the root, if they have as many, whatever the sizes
of theirs. -/
theorem bcastNested_spec [Zero α] {root k : Nat} {world : List (List (List α))} {b : List (List α)} (hb : world[root]? = some b)
    (hk : ∀ v ∈ world, v.length = k) (h : ∀ v ∈ b, v.length < 2 ^ 31) :
    bcastNested root world = .ok (List.replicate world.length b) := by
  have hbk : b.length = k := hk b (List.mem_of_getElem? hb)
  have inv : ∀ i, i ≤ k → (List.range i).foldlM (fun (w : List (List (List α))) i => do
        let column ← bcastRound root (w.map fun v => v.getD i [])
        return List.zipWith (fun v x => v.set i x) w column) world =
      (.ok (world.map fun v => b.take i ++ v.drop i) : Out _) := by
    intro i
    induction i with
    | zero =>
      intro _
      simp [pure, Except.pure]
    | succ i ih =>
      intro hi
      have hlt : i < b.length := by omega
      rw [List.range_succ, List.foldlM_append, ih (by omega)]
      simp only [bind, Except.bind, List.foldlM_cons, List.foldlM_nil]
      have hr := bcastRound_spec (root := root) (b := b[i])
        (column := (world.map fun v => b.take i ++ v.drop i).map fun v => v.getD i []) (by
          rw [List.getElem?_map, List.getElem?_map, hb]
          simp only [Option.map_some, List.take_append_drop]
          rw [List.getD_eq_getElem?_getD, List.getElem?_eq_getElem hlt]
          rfl) (h _ (List.getElem_mem hlt))
      rw [hr]
      simp only [pure, Except.pure]
      congr 1
      apply List.ext_getElem
      · simp
      · intro j h1 h2
        have hj : j < world.length := by simpa using h2
        have hv : (world[j]).length = k := hk _ (List.getElem_mem hj)
        simp only [List.getElem_zipWith, List.getElem_map, List.getElem_replicate]
        have e2 : b.take (i + 1) = b.take i ++ [b[i]] := List.take_succ_eq_append_getElem hlt
        simp only [e2]
        rw [List.set_append, if_neg (by rw [List.length_take]; omega), List.append_assoc]
        congr 1
        rw [List.length_take, Nat.min_eq_left (by omega), Nat.sub_self, List.drop_eq_getElem_cons (by omega : i < (world[j]).length)]
        rfl
  cases world with
  | nil => simp at hb
  | cons c cs =>
    have hc : c.length = k := hk c List.mem_cons_self
    unfold bcastNested
    simp only []
    rw [if_pos ((sameLength_iff _).2 ⟨k, hk⟩), hc, inv k (le_refl _)]
    congr 1
    rw [List.eq_replicate_iff]
    refine ⟨by simp, ?_⟩
    intro v hv
    obtain ⟨u, hu, rfl⟩ := List.mem_map.1 hv
    rw [List.take_of_length_le (by omega), List.drop_of_length_le (by rw [hk u hu]), List.append_nil]

/-- **C76** The number of vectors is not sent: if it is not the same on all ranks then the calls do not match. -/
theorem bcastNested_fails [Zero α] {root : Nat} {world : List (List (List α))} {u v : List (List α)} (hu : u ∈ world) (hv : v ∈ world)
    (h : u.length ≠ v.length) : bcastNested root world = ubOut := by
  have : sameLength world ≠ true := by
    rw [Ne, sameLength_iff]
    rintro ⟨n, hn⟩
    rw [hn u hu, hn v hv] at h
    exact h rfl
  cases world with
  | nil => rfl
  | cons c cs =>
    unfold bcastNested
    simp only []
    rw [if_neg this]

theorem toInt_wrap {r : Nat} (h : r < 2 ^ 31) : toInt (2 ^ 32 + r) = r := by
  unfold toInt
  rw [Int.bmod_def]
  omega

theorem fold_one (f : List (List α) → Out (List (List α))) (v w : List α) (h : f [v] = .ok [w]) :
    (List.range 1).foldlM (fun (u : List (List (List α))) i => do
        let column ← f (u.map fun v : List (List α) => v.getD i [])
        return List.zipWith (fun (v : List (List α)) x => v.set i x) u column) [[v]] = .ok [[w]] := by
  simp only [List.range_one, List.foldlM_cons, List.foldlM_nil, bind, Except.bind, List.map_cons, List.map_nil, List.getD_cons_zero, h]
  rfl

theorem bcastNested_one [Zero α] (v w : List α) (h : bcastRound 0 [v] = .ok [w]) : bcastNested 0 [[v]] = .ok [[w]] := by
  have := fold_one (bcastRound 0) v w h
  unfold bcastNested
  simp only [List.length_singleton]
  rw [this]
  exact if_pos (by rfl)

/-- **C76** The size of each vector is sent as an `int`: of a vector of `2^32 + r` elements only `r` are left, even on one
rank. -/
theorem bcastNested_long_fails [Zero α] (v : List α) (r : Nat) (hr : r < 2 ^ 31) (hv : v.length = 2 ^ 32 + r) :
    bcastNested 0 [[v]] = .ok [[v.take r]] := by
  have h := bcastRound_any (root := 0) (column := [v]) rfl (by rw [hv]; exact toInt_wrap hr) hr
  have e : resizeL v r 0 = v.take r := by
    unfold resizeL
    rw [hv, Nat.sub_eq_zero_of_le (Nat.le_add_left _ _), List.replicate_zero, List.append_nil]
  rw [e, List.length_singleton, List.replicate_one] at h
  exact bcastNested_one _ _ h

/-! ## Reductions -/

theorem fold_length (op : α → α → α) (bs : List (List α)) (b : List α) (h : ∀ v ∈ bs, v.length = b.length) :
    (bs.foldl (List.zipWith op) b).length = b.length := by
  induction bs generalizing b with
  | nil => rfl
  | cons c cs ih =>
    have hc : (List.zipWith op b c).length = b.length := by
      rw [List.length_zipWith, h c List.mem_cons_self, Nat.min_self]
    rw [List.foldl_cons, ih _ fun v hv => by rw [hc]; exact h v (List.mem_cons_of_mem _ hv), hc]

theorem fold_get (op : α → α → α) (d : α) (bs : List (List α)) (b : List α) (h : ∀ v ∈ bs, v.length = b.length) (j : Nat)
    (hj : j < b.length) :
    (bs.foldl (List.zipWith op) b)[j]? = some ((bs.map fun v => v.getD j d).foldl op (b.getD j d)) := by
  induction bs generalizing b with
  | nil =>
    simp only [List.foldl_nil, List.map_nil]
    rw [List.getD_eq_getElem?_getD, List.getElem?_eq_getElem hj]
    rfl
  | cons c cs ih =>
    have hcl := h c List.mem_cons_self
    have hc : (List.zipWith op b c).length = b.length := by
      rw [List.length_zipWith, hcl, Nat.min_self]
    rw [List.foldl_cons, ih _ (fun v hv => by rw [hc]; exact h v (List.mem_cons_of_mem _ hv)) (by omega), List.map_cons, List.foldl_cons]
    congr 2
    rw [List.getD_eq_getElem?_getD, List.getD_eq_getElem?_getD, List.getD_eq_getElem?_getD, List.getElem?_eq_getElem (by omega),
      List.getElem?_eq_getElem hj, List.getElem?_eq_getElem (by omega)]
    simp

/-- The elements at position `j`, by rank, combined from the first rank on. -/
def combined (op : α → α → α) (d : α) (world : List (List α)) (j : Nat) : α :=
  match world.map fun v => v.getD j d with
  | [] => d
  | x :: xs => xs.foldl op x

theorem mpiCombine_spec (op : α → α → α) (d : α) {world : List (List α)} {n : Nat} (hw : world ≠ []) (hn : ∀ v ∈ world, v.length = n)
    (h : n < 2 ^ 31) : ∃ w, mpiCombine op world = .ok w ∧ w.length = n ∧ ∀ j < n, w[j]? = some (combined op d world j) := by
  cases world with
  | nil => exact absurd rfl hw
  | cons b bs =>
    have hb : b.length = n := hn b List.mem_cons_self
    have hbs : ∀ v ∈ bs, v.length = b.length := fun v hv => by rw [hb]; exact hn v (List.mem_cons_of_mem _ hv)
    have hl := fold_length op bs b hbs
    refine ⟨bs.foldl (List.zipWith op) b, ?_, by omega, ?_⟩
    · unfold mpiCombine
      rw [if_pos ((sameLength_iff _).2 ⟨n, hn⟩)]
      simp only [hb, toInt_small h]
      rw [if_neg (by omega), Int.toNat_natCast, List.take_of_length_le (by omega)]
    · intro j hj
      rw [fold_get op d bs b hbs j (by omega)]
      rfl

theorem combined_sum [AddCommMonoid α] (world : List (List α)) (j : Nat) :
    combined (· + ·) 0 world j = (world.map fun v => v.getD j 0).sum := by
  unfold combined
  cases world with
  | nil => rfl
  | cons b bs =>
    simp only [List.map_cons, List.sum_cons]
    generalize b.getD j 0 = x
    generalize bs.map (fun v => v.getD j 0) = l
    induction l generalizing x with
    | nil => simp
    | cons y l ih => rw [List.foldl_cons, ih, List.sum_cons, add_assoc]

theorem receive_full {w buffer : List α} (h : w.length = buffer.length) : receive w buffer = .ok w := by
  unfold receive
  rw [if_pos (by omega), List.drop_of_length_le (by omega), List.append_nil]

/-- **C76** `reduce`: the root gets the combination of the vectors, position by position, and the other ranks keep theirs. -/
theorem reduce_spec [Zero α] (op : α → α → α) (d : α) {root n : Nat} {world : List (List α)} (hr : root < world.length)
    (hn : ∀ v ∈ world, v.length = n) (h : n < 2 ^ 31) :
    ∃ w, reduce op root world = .ok (world.set root w) ∧ w.length = n ∧ ∀ j < n, w[j]? = some (combined op d world j) := by
  obtain ⟨w, h1, h2, h3⟩ := mpiCombine_spec op d (world := world) (by rintro rfl; simp at hr) hn h
  refine ⟨w, ?_, h2, h3⟩
  unfold reduce
  rw [h1, List.getElem?_eq_getElem hr]
  simp only [bind, Except.bind, pure, Except.pure]
  rw [receive_full (by rw [List.length_replicate, hn _ (List.getElem_mem hr), h2])]

/-- **C76** `reduce` with `MPI_SUM`, where the numbers are added without rounding. -/
theorem reduce_sum [AddCommMonoid α] {root n : Nat} {world : List (List α)} (hr : root < world.length)
    (hn : ∀ v ∈ world, v.length = n) (h : n < 2 ^ 31) :
    ∃ w, reduce (· + ·) root world = .ok (world.set root w) ∧ w.length = n ∧ ∀ j < n, w[j]? = some (world.map fun v => v.getD j 0).sum := by
  obtain ⟨w, h1, h2, h3⟩ := reduce_spec (· + ·) (0 : α) hr hn h
  exact ⟨w, h1, h2, fun j hj => by rw [h3 j hj, combined_sum]⟩

/-- **C76** `allReduce`: all ranks get the combination of the vectors. -/
theorem allReduce_spec (op : α → α → α) (d : α) {n : Nat} {world : List (List α)} (hw : world ≠ [])
    (hn : ∀ v ∈ world, v.length = n) (h : n < 2 ^ 31) :
    ∃ w, allReduce op world = .ok (List.replicate world.length w) ∧ w.length = n ∧ ∀ j < n, w[j]? = some (combined op d world j) := by
  obtain ⟨w, h1, h2, h3⟩ := mpiCombine_spec op d hw hn h
  refine ⟨w, ?_, h2, h3⟩
  unfold allReduce
  rw [h1]
  refine (mapM_ok (fun v => receive w v) (fun _ => w) world ?_).trans (congrArg Except.ok (List.map_const' ..))
  intro v hv
  exact receive_full (by rw [hn v hv, h2])

/-- **C76** `allReduce` with `MPI_SUM`. -/
theorem allReduce_sum [AddCommMonoid α] {n : Nat} {world : List (List α)} (hw : world ≠ []) (hn : ∀ v ∈ world, v.length = n)
    (h : n < 2 ^ 31) :
    ∃ w, allReduce (· + ·) world = .ok (List.replicate world.length w) ∧ w.length = n ∧
      ∀ j < n, w[j]? = some (world.map fun v => v.getD j 0).sum := by
  obtain ⟨w, h1, h2, h3⟩ := allReduce_spec (· + ·) (0 : α) hw hn h
  exact ⟨w, h1, h2, fun j hj => by rw [h3 j hj, combined_sum]⟩

/-! ## Complex numbers -/

theorem flat_zip (op : α → α → α) (u v : List (α × α)) :
    List.zipWith op (flat u) (flat v) = flat (List.zipWith (fun x y => (op x.1 y.1, op x.2 y.2)) u v) := by
  induction u generalizing v with
  | nil => simp [flat]
  | cons x u ih =>
    cases v with
    | nil => simp [flat]
    | cons y v =>
      have e : ∀ (x : α × α) t, flat (x :: t) = x.1 :: x.2 :: flat t := fun _ _ => rfl
      rw [e, e, List.zipWith_cons_cons, List.zipWith_cons_cons, List.zipWith_cons_cons, ih, e]

theorem flat_fold (op : α → α → α) (bs : List (List (α × α))) (b : List (α × α)) :
    (bs.map flat).foldl (List.zipWith op) (flat b) = flat (bs.foldl (List.zipWith fun x y => (op x.1 y.1, op x.2 y.2)) b) := by
  induction bs generalizing b with
  | nil => rfl
  | cons c cs ih => rw [List.map_cons, List.foldl_cons, List.foldl_cons, flat_zip, ih]

theorem combine_flat (op : α → α → α) {world : List (List (α × α))} {n : Nat} (hw : world ≠ []) (hn : ∀ v ∈ world, v.length = n)
    (h : n < 2 ^ 30) : ∃ w, mpiCombine op (world.map flat) = .ok (flat w) ∧
      mpiCombine (fun x y => (op x.1 y.1, op x.2 y.2)) world = .ok w ∧ w.length = n := by
  cases world with
  | nil => exact absurd rfl hw
  | cons b bs =>
    have hb : b.length = n := hn b List.mem_cons_self
    have hbs : ∀ v ∈ bs, v.length = b.length := fun v hv => by rw [hb]; exact hn v (List.mem_cons_of_mem _ hv)
    have hl := fold_length (fun x y : α × α => (op x.1 y.1, op x.2 y.2)) bs b hbs
    refine ⟨_, ?_, ?_, hl.trans hb⟩
    · unfold mpiCombine
      rw [if_pos ((sameLength_iff _).2 ⟨2 * n, by
        intro v hv
        obtain ⟨u, hu, rfl⟩ := List.mem_map.1 hv
        rw [flat_length, hn u hu]⟩)]
      simp only [List.map_cons, flat_length, hb, toInt_small (show 2 * n < 2 ^ 31 by omega), flat_fold]
      rw [if_neg (by omega), Int.toNat_natCast, List.take_of_length_le (by rw [flat_length, hl]; omega)]
    · unfold mpiCombine
      rw [if_pos ((sameLength_iff _).2 ⟨n, hn⟩)]
      simp only [hb, toInt_small (show n < 2 ^ 31 by omega)]
      rw [if_neg (by omega), Int.toNat_natCast, List.take_of_length_le (by omega)]

/-- **C76** `reduce` of vectors of complex numbers combines real and imaginary parts. -/
theorem reduceComplex_spec [Zero α] (op : α → α → α) {root n : Nat} {world : List (List (α × α))} (hr : root < world.length)
    (hn : ∀ v ∈ world, v.length = n) (h : n < 2 ^ 30) :
    reduceComplex op root world = reduce (fun x y => (op x.1 y.1, op x.2 y.2)) root world := by
  obtain ⟨w, h1, h2, h3⟩ := combine_flat op (world := world) (by rintro rfl; simp at hr) hn h
  have hl := hn _ (List.getElem_mem hr)
  unfold reduceComplex reduce
  rw [h1, h2, List.getElem?_eq_getElem hr]
  simp only [bind, Except.bind, pure, Except.pure]
  rw [receive_full (by rw [List.length_replicate, flat_length]; omega), receive_full (by rw [List.length_replicate]; omega)]
  simp only [unflat_flat]

/-- **C76** `allReduce` of vectors of complex numbers combines real and imaginary parts. -/
theorem allReduceComplex_spec (op : α → α → α) {n : Nat} {world : List (List (α × α))} (hw : world ≠ [])
    (hn : ∀ v ∈ world, v.length = n) (h : n < 2 ^ 30) :
    allReduceComplex op world = allReduce (fun x y => (op x.1 y.1, op x.2 y.2)) world := by
  obtain ⟨w, h1, h2, h3⟩ := combine_flat op hw hn h
  unfold allReduceComplex allReduce
  rw [h1, h2]
  refine (mapM_ok _ (fun _ => w) world ?_).trans (mapM_ok (fun v => receive w v) (fun _ => w) world ?_).symm
  · intro v hv
    have hl := hn v hv
    simp only [bind, Except.bind, pure, Except.pure]
    rw [receive_full (by rw [flat_length, flat_length]; omega)]
    simp only [unflat_flat]
  · intro v hv
    exact receive_full (by rw [hn v hv, h3])

/-- **C76** The sum of complex numbers is right. -/
theorem reduceComplex_sum [AddCommMonoid α] {root n : Nat} {world : List (List (α × α))} (hr : root < world.length)
    (hn : ∀ v ∈ world, v.length = n) (h : n < 2 ^ 30) :
    ∃ w, reduceComplex (· + ·) root world = .ok (world.set root w) ∧ w.length = n ∧
      ∀ j < n, w[j]? = some (world.map fun v => v.getD j 0).sum := by
  rw [reduceComplex_spec (· + ·) hr hn h]
  exact reduce_sum (α := α × α) hr hn (by omega)

/-- **C76** The product is not: `i * i` gives `i`. -/
theorem reduceComplex_prod_fails : reduceComplex (· * ·) 0 [[((0 : Int), 1)], [(0, 1)]] = .ok [[(0, 1)], [(0, 1)]] := by
  decide

/-! ## Numbers of 32 and 64 bits -/

/-- **C76** `allReduce` of an integer of at most 32 bits. -/
theorem allReduceOne_spec {w : Nat} (hw : w ≤ 32) (op : BitVec w → BitVec w → BitVec w) (x : BitVec w) (xs : List (BitVec w)) :
    allReduceOne op (x :: xs) = .ok (List.replicate (xs.length + 1) (xs.foldl op x)) := by
  have e : ∀ x : BitVec w, (xs.map fun x => [x]).foldl (List.zipWith op) [x] = [xs.foldl op x] := by
    induction xs with
    | nil => intro x; rfl
    | cons y ys ih =>
      intro x
      rw [List.map_cons, List.foldl_cons, List.foldl_cons]
      exact ih (op x y)
  have h1 : mpiCombine op ((x :: xs).map fun x => [x]) = .ok [xs.foldl op x] := by
    unfold mpiCombine
    rw [if_pos ((sameLength_iff _).2 ⟨1, by intro v hv; obtain ⟨u, -, rfl⟩ := List.mem_map.1 hv; rfl⟩)]
    simp only [List.map_cons, e, List.length_singleton, toInt_small (show 1 < 2 ^ 31 by omega)]
    rfl
  unfold allReduceOne
  rw [h1]
  simp only [bind, Except.bind]
  rw [if_neg (by omega)]
  simp only [pure, Except.pure]
  congr 1
  simp [List.eq_replicate_iff]

/-- **C76** `allReduce` of a number of 64 bits (`SizeType` or `double`) writes past the end of a variable of 32 bits. -/
theorem allReduceOne_fails {w : Nat} (hw : 32 < w) (op : BitVec w → BitVec w → BitVec w) (world : List (BitVec w)) :
    allReduceOne op world = ubOut := by
  unfold allReduceOne
  cases world with
  | nil => rfl
  | cons x xs =>
    obtain ⟨r, h1, -, -⟩ := mpiCombine_spec op x (world := (x :: xs).map fun x => [x]) (n := 1) (by simp)
      (by intro v hv; obtain ⟨u, -, rfl⟩ := List.mem_map.1 hv; rfl) (by omega)
    rw [h1]
    simp only [bind, Except.bind]
    rw [if_pos hw]

/-- **C76** Sums of unsigned numbers, which are sent as signed numbers, are right up to a multiple of `2^w`. -/
theorem signed_sum {w : Nat} (x : BitVec w) (xs : List (BitVec w)) :
    (xs.foldl (Op.signed .sum) x).toNat = ((x :: xs).map BitVec.toNat).sum % 2 ^ w := by
  induction xs generalizing x with
  | nil => simp [Nat.mod_eq_of_lt x.isLt]
  | cons y ys ih =>
    rw [List.foldl_cons, ih]
    simp only [Op.signed, List.map_cons, List.sum_cons, BitVec.toNat_add]
    rw [Nat.mod_add_mod, Nat.add_assoc]

/-- **C76** The maximum of unsigned numbers is right if all are below `2^(w-1)`. -/
theorem signed_max {w : Nat} (x : BitVec w) (xs : List (BitVec w)) (h : ∀ y ∈ x :: xs, 2 * y.toNat < 2 ^ w) :
    xs.foldl (Op.signed .max) x ∈ x :: xs ∧ ∀ y ∈ x :: xs, y.toNat ≤ (xs.foldl (Op.signed .max) x).toNat := by
  induction xs generalizing x with
  | nil => simp
  | cons y ys ih =>
    have hx := h x List.mem_cons_self
    have hy := h y (by simp)
    have hslt : x.slt y = decide (x.toNat < y.toNat) := by
      rw [BitVec.slt_eq_decide, BitVec.toInt_eq_toNat_of_lt hx, BitVec.toInt_eq_toNat_of_lt hy]
      simp
    rw [List.foldl_cons]
    have hm : Op.signed .max x y = if x.toNat < y.toNat then y else x := by
      simp [Op.signed, hslt]
    obtain ⟨i1, i2⟩ := ih (Op.signed .max x y) (by
      intro z hz
      rcases List.mem_cons.1 hz with rfl | hz
      · rw [hm]
        split <;> assumption
      · exact h z (by simp [hz]))
    have i3 := i2 _ List.mem_cons_self
    refine ⟨?_, ?_⟩
    · rcases List.mem_cons.1 i1 with e | e
      · rw [e, hm]
        split <;> simp
      · simp [e]
    · intro z hz
      have i4 : x.toNat ≤ (Op.signed .max x y).toNat ∧ y.toNat ≤ (Op.signed .max x y).toNat := by
        rw [hm]
        split <;> omega
      rcases List.mem_cons.1 hz with rfl | hz
      · omega
      · rcases List.mem_cons.1 hz with rfl | hz
        · omega
        · exact i2 z (List.mem_cons_of_mem _ hz)

/-- **C76** It is not for larger ones. -/
theorem signed_max_fails : allReduce (Op.signed .max) [[(9223372036854775808 : BitVec 64)], [1]] = .ok [[1], [1]] := by
  decide +kernel

/-! ## The hypotheses are met -/

example : bcastVec 1 [[], [(7 : Int), 8], [1, 2, 3]] = .ok [[7, 8], [7, 8], [7, 8]] := by decide
example : bcastNested 0 [[[(7 : Int)], [8, 9]], [[], [1, 2, 3]]] = .ok [[[7], [8, 9]], [[7], [8, 9]]] := by decide
example : reduce (· + ·) 1 [[(7 : Int), 8], [1, 2], [10, 20]] = .ok [[7, 8], [18, 30], [10, 20]] := by decide
example : allReduceComplex (· + ·) [[((1 : Int), 2)], [(3, 4)]] = .ok [[(4, 6)], [(4, 6)]] := by decide
example : allReduceOne (Op.signed .sum) [(1 : BitVec 32), 2, 3] = .ok [6, 6, 6] := by decide
example : bcastComplex 0 [[((1 : Int), 2)], []] = ubOut := by decide

example := bcast_spec (root := 1) (world := [7, 8, (9 : Int)]) (x := 8) rfl
example := bcastPair_spec (root := 1) (world := [((7 : Int), true), (8, false)]) (x := (8, false)) rfl
example := bcastVec_spec (root := 1) (world := [[], [(7 : Int), 8], [1, 2, 3]]) (b := [7, 8]) rfl (by decide)
example := bcastNested_spec (root := 0) (k := 2) (world := [[[(7 : Int)], [8, 9]], [[], [1, 2, 3]]]) (b := [[7], [8, 9]]) rfl (by decide) (by decide)
example : bcastNested 0 [[[(7 : Int)], [8, 9]], [[1, 2]]] = ubOut :=
  bcastNested_fails (u := [[(7 : Int)], [8, 9]]) (v := [[1, 2]]) (by decide) (by decide) (by decide)
example : bcastNested 0 [[List.replicate (2 ^ 32 + 3) (7 : Int)]] = .ok [[(List.replicate (2 ^ 32 + 3) (7 : Int)).take 3]] :=
  bcastNested_long_fails _ 3 (by decide) List.length_replicate
example := bcastComplex_spec (root := 1) (n := 1) (world := [[((1 : Int), 2)], [(3, 4)]]) (b := [(3, 4)]) rfl (by decide) (by decide)
example : bcastComplex 0 [[((1 : Int), 2)], []] = ubOut := bcastComplex_fails (u := [((1 : Int), 2)]) (v := []) (by decide) (by decide) (by decide)
example := reduce_spec (fun x y : Int => max x y) 0 (root := 1) (n := 2) (world := [[7, 8], [1, 2], [10, 20]]) (by decide) (by decide) (by decide)
example := reduce_sum (root := 1) (n := 2) (world := [[(7 : Int), 8], [1, 2], [10, 20]]) (by decide) (by decide) (by decide)
example := reduceComplex_spec (fun x y : Int => max x y) (root := 1) (n := 1) (world := [[(7, 8)], [(1, 2)]]) (by decide) (by decide) (by decide)
example := reduceComplex_sum (root := 1) (n := 1) (world := [[((7 : Int), 8)], [(1, 2)]]) (by decide) (by decide) (by decide)
example := allReduce_spec (fun x y : Int => max x y) 0 (n := 2) (world := [[7, 8], [1, 2], [10, 20]]) (by decide) (by decide) (by decide)
example := allReduce_sum (n := 2) (world := [[(7 : Int), 8], [1, 2], [10, 20]]) (by decide) (by decide) (by decide)
example := allReduceComplex_spec (fun x y : Int => max x y) (n := 1) (world := [[(7, 8)], [(1, 2)]]) (by decide) (by decide) (by decide)
example := allReduceOne_spec (w := 32) (by decide) (Op.signed .sum) 1 [2, 3]
example := allReduceOne_fails (w := 64) (by decide) (Op.signed .sum) [1, 2]
example : [(5 : BitVec 32), 2].foldl (Op.signed .max) 3 = 5 ∧ ∀ y ∈ [(3 : BitVec 32), 5, 2], y.toNat ≤ ([(5 : BitVec 32), 2].foldl (Op.signed .max) 3).toNat :=
  ⟨by decide, (signed_max (w := 32) 3 [5, 2] (by intro y hy; simp at hy; rcases hy with rfl | rfl | rfl <;> simp)).2⟩

end Verif.Collective
