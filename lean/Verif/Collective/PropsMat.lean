import Verif.Collective.ModelMat
import Verif.Collective.Props
import Verif.Gather.Props
import Verif.Dense.Lemmas

/-!
# C103: messages with vectors and matrices

What is sent is what is received, whatever the object of the receiver held before and whatever the tags are, also when the
tags of different objects are the same, as it happens in `pointByPointGather`, where object `t` uses the tags `t`, `t + 1`,
....  `bcast` gives the matrix of the root to all ranks, `allReduce` combines matrices element by element.
-/

namespace Verif.Collective

open Verif.Loop
open Verif.Dense (Mat)
open Verif.Crs (Crs)

variable {α : Type}

/-! ## Vectors -/

theorem take_head (tag : Nat) (p : Payload α) (c : Chan α) : takeTag tag ((tag, p) :: c) = some (p, c) := by
  rw [takeTag, if_pos rfl]

theorem low32_small {n : Nat} (h : n < 2 ^ 32) : low32 n = n := Nat.mod_eq_of_lt h

theorem count_small {n : Nat} (h : n < 2 ^ 31) : mpiCount n = some n := by
  unfold mpiCount
  rw [toInt_small h, if_neg (by omega), Int.toNat_natCast]

theorem overlay_small {old : Nat} (n : Nat) (h : old < 2 ^ 32) : overlay old n = n := by
  unfold overlay
  rw [Nat.div_eq_of_lt h, Nat.zero_mul, Nat.zero_add]

theorem word_spec (n old tag : Nat) (rest : Chan α) : recvWord old tag (sendWord n tag ++ rest) = .ok (n, rest) := by
  simp only [sendWord, List.cons_append, List.nil_append, recvWord, take_head]

theorem fit_length {β : Type} [Zero β] (v : List β) (total : Nat) : (fit v total).length = total := by
  unfold fit
  by_cases e : v.length = total
  · rw [if_neg (by simpa using e), e]
  · rw [if_pos e, resizeL_length]

theorem send_eq {β : Type} {k : Nat} (hk : 0 < k) (wrap : List β → Payload α) (v : List β) (tag : Nat) (hv : k * v.length < 2 ^ 31) :
    sendVec k wrap v tag = .ok [(tag, .int32 v.length), (tag, wrap v)] := by
  have hkv : v.length ≤ k * v.length := Nat.le_mul_of_pos_left _ hk
  unfold sendVec
  rw [count_small hv]
  simp only [sendCount]
  rw [low32_small (by omega), Nat.mul_div_cancel_left _ hk, List.take_length]

theorem recv_size (old n tag : Nat) (p : Payload α) (rest : Chan α) :
    recvWord old tag ([(tag, .int32 n), (tag, p)] ++ rest) = .ok (overlay old n, (tag, p) :: rest) := by
  simp only [List.cons_append, List.nil_append, recvWord, take_head]

theorem recv_rest {β : Type} [Zero β] {k : Nat} {wrap : List β → Payload α} {unwrap : Payload α → Option (List β)}
    (hw : ∀ l, unwrap (wrap l) = some l) (v old : List β) (tag total : Nat) (rest : Chan α)
    (hc : ∃ n, mpiCount (k * total) = some n ∧ k * v.length ≤ n) :
    recvRest k unwrap old tag (total, (tag, wrap v) :: rest) = .ok (v ++ (fit old total).drop v.length, rest) := by
  obtain ⟨n, h1, h2⟩ := hc
  unfold recvRest
  simp only [take_head, hw]
  unfold recvInto
  rw [fit_length, h1]
  simp only [recvCount]
  rw [if_neg (by omega)]
  rfl

/-- **C103** A vector that is sent is received, whatever the vector of the receiver held, if it has fewer than `2^32`
elements. -/
theorem vec_spec {β : Type} [Zero β] {k : Nat} (hk : 0 < k) {wrap : List β → Payload α} {unwrap : Payload α → Option (List β)}
    (hw : ∀ l, unwrap (wrap l) = some l) (v old : List β) (tag : Nat) (rest : Chan α) (hv : k * v.length < 2 ^ 31)
    (ho : old.length < 2 ^ 32) :
    ∃ c, sendVec k wrap v tag = .ok c ∧ recvVec k unwrap old tag (c ++ rest) = .ok (v, rest) := by
  refine ⟨_, send_eq hk wrap v tag hv, ?_⟩
  unfold recvVec
  rw [recv_size, overlay_small _ ho]
  refine (recv_rest hw v old tag v.length rest ⟨_, count_small hv, le_refl _⟩).trans ?_
  rw [List.drop_of_length_le (by rw [fit_length]), List.append_nil]

theorem toInt_add (q n : Nat) : toInt (q * 2 ^ 32 + n) = toInt n := by
  unfold toInt
  rw [show ((q * 2 ^ 32 + n : Nat) : Int) = (n : Int) + (2 ^ 32 : Nat) * (q : Int) by push_cast; ring]
  exact Int.add_mul_bmod_self_left ..

/-- **C103** The size is sent as four bytes and received into eight: if the vector of the receiver has more elements than
fit in four bytes then what is received is not what was sent. -/
theorem vec_old_fails {β : Type} [Zero β] {wrap : List β → Payload α} {unwrap : Payload α → Option (List β)}
    (hw : ∀ l, unwrap (wrap l) = some l) (v old : List β) (tag : Nat) (rest : Chan α) (hv : v.length < 2 ^ 31)
    (ho : 2 ^ 32 ≤ old.length) :
    ∃ c u, sendVec 1 wrap v tag = .ok c ∧ recvVec 1 unwrap old tag (c ++ rest) = .ok (u, rest) ∧ u ≠ v := by
  have hl : v.length < overlay old.length v.length := by
    unfold overlay
    omega
  refine ⟨_, v ++ (fit old (overlay old.length v.length)).drop v.length, send_eq Nat.one_pos wrap v tag (by omega), ?_, ?_⟩
  · unfold recvVec
    rw [recv_size]
    refine recv_rest hw v old tag _ rest ⟨v.length, ?_, by omega⟩
    unfold mpiCount overlay
    rw [Nat.one_mul, toInt_add, toInt_small hv, if_neg (by omega), Int.toNat_natCast]
  · intro h
    have := congrArg List.length h
    rw [List.length_append, List.length_drop, fit_length] at this
    omega

/-- **C103** A vector with `2^31` numbers or more, up to `2^32`, cannot be sent. -/
theorem vec_long_fails {β : Type} (k : Nat) (wrap : List β → Payload α) (v : List β) (tag : Nat) (h1 : 2 ^ 31 ≤ k * v.length)
    (h2 : k * v.length < 2 ^ 32) : sendVec k wrap v tag = throwOut := by
  have : toInt (k * v.length) < 0 := by
    unfold toInt
    generalize k * v.length = n at *
    have : ((n : Int)).bmod (2 ^ 32) = (n : Int) - 2 ^ 32 := by
      rw [← Int.add_mul_bmod_self_left (n : Int) (2 ^ 32) (-1)]
      apply Int.bmod_eq_of_le <;> omega
    omega
  unfold sendVec
  rw [show mpiCount (k * v.length) = none by
    unfold mpiCount
    rw [if_pos this]]
  rfl

theorem combine_long (op : α → α → α) {world : List (List α)} {n : Nat} (hw : world ≠ [])
    (hn : ∀ v ∈ world, v.length = n) (h1 : 2 ^ 31 ≤ n) (h2 : n < 2 ^ 32) : mpiCombine op world = throwOut := by
  have neg : toInt n < 0 := by
    unfold toInt
    have : ((n : Int)).bmod (2 ^ 32) = (n : Int) - 2 ^ 32 := by
      rw [← Int.add_mul_bmod_self_left (n : Int) (2 ^ 32) (-1)]
      apply Int.bmod_eq_of_le <;> omega
    omega
  obtain ⟨b, bs, rfl⟩ := List.exists_cons_of_ne_nil hw
  unfold mpiCombine
  rw [if_pos ((sameLength_iff _).2 ⟨n, hn⟩)]
  simp only [hn b List.mem_cons_self]
  rw [if_pos neg]

/-- **C76** Vectors with `2^31` numbers or more, up to `2^32`, can neither be reduced to one process nor to all. -/
theorem reduce_long_fails [Zero α] (op : α → α → α) (root : Nat) {world : List (List α)} {n : Nat} (hw : world ≠ [])
    (hn : ∀ v ∈ world, v.length = n) (h1 : 2 ^ 31 ≤ n) (h2 : n < 2 ^ 32) :
    reduce op root world = throwOut ∧ allReduce op world = throwOut := by
  unfold reduce allReduce
  rw [combine_long op hw hn h1 h2]
  exact ⟨rfl, rfl⟩

/-- **C76** For complex numbers half as many are too many. -/
theorem reduceComplex_long_fails [Zero α] (op : α → α → α) (root : Nat) {world : List (List (α × α))} {n : Nat} (hw : world ≠ [])
    (hn : ∀ v ∈ world, v.length = n) (h1 : 2 ^ 30 ≤ n) (h2 : n < 2 ^ 31) :
    reduceComplex op root world = throwOut ∧ allReduceComplex op world = throwOut := by
  have key : mpiCombine op (world.map flat) = throwOut := combine_long op (n := 2 * n) (by simpa using hw) (by
    intro v hv
    obtain ⟨u, hu, rfl⟩ := List.mem_map.1 hv
    rw [flat_length, hn u hu]) (by omega) (by omega)
  unfold reduceComplex allReduceComplex
  rw [key]
  exact ⟨rfl, rfl⟩

example (u v : List Int) (hu : u.length = 2 ^ 31) (hv : v.length = 2 ^ 31) : reduce (· + ·) 0 [u, v] = throwOut :=
  (reduce_long_fails _ _ (n := 2 ^ 31) (by simp) (by simp [hu, hv]) (le_refl _) (by norm_num)).1

/-! ## Matrices -/

theorem elements_wrap (l : List α) : (Payload.elements l).elements? = some l := rfl
theorem indices_wrap (l : List Nat) : (Payload.indices l : Payload α).indices? = some l := rfl

/-- An object with `send` and `recv`: what is sent is received, if the object of the receiver is not too large. -/
def Transfers {γ : Type} (send : γ → Nat → Out (Chan α)) (recv : γ → Nat → Chan α → Out (γ × Chan α)) (sent old : γ → Prop) : Prop :=
  ∀ m o tag, sent m → old o → ∃ c, send m tag = .ok c ∧ ∀ rest, recv o tag (c ++ rest) = .ok (m, rest)

/-- The vectors of a matrix have fewer numbers than the greatest `int`. -/
def FitsMat (k : Nat) (m : Mat α) : Prop := k * m.data.length < 2 ^ 31

/-- The vectors of a sparse matrix have fewer numbers than the greatest `int`. -/
def FitsCrs (k : Nat) (m : Crs α) : Prop := m.rowptr.length < 2 ^ 31 ∧ m.colind.length < 2 ^ 31 ∧ k * m.values.length < 2 ^ 31

/-- The first message of `sendVec` and the second do not depend on what follows. -/
theorem vec_all {β : Type} [Zero β] {k : Nat} (hk : 0 < k) {wrap : List β → Payload α} {unwrap : Payload α → Option (List β)}
    (hw : ∀ l, unwrap (wrap l) = some l) (v old : List β) (tag : Nat) (hv : k * v.length < 2 ^ 31) (ho : old.length < 2 ^ 32) :
    ∃ c, sendVec k wrap v tag = .ok c ∧ ∀ rest, recvVec k unwrap old tag (c ++ rest) = .ok (v, rest) := by
  obtain ⟨c, h1, -⟩ := vec_spec hk hw v old tag ([] : Chan α) hv ho
  refine ⟨c, h1, fun rest => ?_⟩
  obtain ⟨c', h2, h3⟩ := vec_spec hk hw v old tag rest hv ho
  have : c = c' := Except.ok.inj (h1.symm.trans h2)
  rw [this, h3]

/-- **C103** A matrix that is sent is received, with its shape, whatever the matrix of the receiver was. -/
theorem mat_transfers [Zero α] {k : Nat} (hk : 0 < k) :
    Transfers (sendMat (α := α) k) (recvMat k) (FitsMat k) fun o => o.data.length < 2 ^ 32 := by
  intro m o tag hm ho
  obtain ⟨c, h1, h2⟩ := vec_all hk elements_wrap m.data o.data (tag + 2) hm ho
  refine ⟨sendWord m.nrow tag ++ sendWord m.ncol (tag + 1) ++ c, ?_, fun rest => ?_⟩
  · unfold sendMat
    rw [h1]
    rfl
  · unfold recvMat
    simp only [List.append_assoc, word_spec, bind, Except.bind, h2, pure, Except.pure]

/-- **C103** A sparse matrix that is sent is received. -/
theorem crs_transfers [Zero α] {k : Nat} (hk : 0 < k) :
    Transfers (sendCrs (α := α) k) (recvCrs k) (FitsCrs k)
      fun o => o.rowptr.length < 2 ^ 32 ∧ o.colind.length < 2 ^ 32 ∧ o.values.length < 2 ^ 32 := by
  intro m o tag ⟨hm1, hm2, hm3⟩ ⟨ho1, ho2, ho3⟩
  obtain ⟨a, a1, a2⟩ := vec_all Nat.one_pos indices_wrap m.rowptr o.rowptr (tag + 2) (α := α) (by omega) ho1
  obtain ⟨b, b1, b2⟩ := vec_all Nat.one_pos indices_wrap m.colind o.colind (tag + 3) (α := α) (by omega) ho2
  obtain ⟨c, c1, c2⟩ := vec_all hk elements_wrap m.values o.values (tag + 4) hm3 ho3
  refine ⟨sendWord m.nrow tag ++ sendWord m.ncol (tag + 1) ++ a ++ b ++ c, ?_, fun rest => ?_⟩
  · unfold sendCrs
    rw [a1, b1, c1]
    rfl
  · unfold recvCrs
    simp only [List.append_assoc, word_spec, bind, Except.bind, a2, b2, c2, pure, Except.pure]

/-- **C103** Any number of objects, sent one after the other and received in that order, with any tags. -/
theorem all_spec {γ : Type} {send : γ → Nat → Out (Chan α)} {recv : γ → Nat → Chan α → Out (γ × Chan α)} {sent old : γ → Prop}
    (ht : Transfers send recv sent old) (l : List (γ × γ × Nat)) (hs : ∀ x ∈ l, sent x.1) (ho : ∀ x ∈ l, old x.2.1) :
    ∃ c, sendAll send (l.map fun x => (x.1, x.2.2)) = .ok c ∧
      ∀ rest, recvAll recv (l.map fun x => (x.2.1, x.2.2)) (c ++ rest) = .ok (l.map fun x => x.1, rest) := by
  induction l with
  | nil => exact ⟨[], rfl, fun rest => rfl⟩
  | cons x l ih =>
    obtain ⟨m, o, tag⟩ := x
    obtain ⟨a, a1, a2⟩ := ht m o tag (hs _ List.mem_cons_self) (ho _ List.mem_cons_self)
    obtain ⟨b, b1, b2⟩ := ih (fun x h => hs x (List.mem_cons_of_mem _ h)) (fun x h => ho x (List.mem_cons_of_mem _ h))
    refine ⟨a ++ b, ?_, fun rest => ?_⟩
    · simp only [List.map_cons, sendAll, a1, b1, bind, Except.bind, pure, Except.pure]
    · simp only [List.map_cons, recvAll, List.append_assoc, a2, b2, bind, Except.bind, pure, Except.pure]

/-- Two matrices with tags that are the same, received into matrices in use. -/
example : ∃ c, sendAll (sendMat (α := Int) 1) [(⟨1, 2, [3, 4]⟩, 1), (⟨1, 1, [5]⟩, 2)] = .ok c ∧
    c = [(1, .word 1), (2, .word 2), (3, .int32 2), (3, .elements [3, 4]), (2, .word 1), (3, .word 1), (4, .int32 1), (4, .elements [5])] ∧
    recvAll (recvMat 1) [(⟨0, 0, []⟩, 1), (⟨3, 1, [7, 7, 7]⟩, 2)] c = .ok ([⟨1, 2, [3, 4]⟩, ⟨1, 1, [5]⟩], []) := by
  refine ⟨_, rfl, ?_, ?_⟩ <;> decide

/-! ## Gathering matrices -/

/-- A message format from `send` and `recv`, for `pointByPointGather`.  The tags do not depend on the object. -/
def wireOf {γ : Type} (send : γ → Nat → Out (Chan α)) (recv : γ → Nat → Chan α → Out (γ × Chan α)) (sent : γ → Prop) [DecidablePred sent]
    (tags : Nat → List Nat) (old : γ) : Gather.Wire {m : γ // sent m} (Payload α) where
  tags := tags
  pack := fun m => match send m.1 0 with
    | .ok c => c.map Prod.snd
    | .error _ => []
  unpack := fun l => match recv old 0 ((tags 0).zip l) with
    | .ok (m, []) => if h : sent m then some ⟨m, h⟩ else none
    | _ => none

theorem wire_lawful {γ : Type} {send : γ → Nat → Out (Chan α)} {recv : γ → Nat → Chan α → Out (γ × Chan α)} {sent old : γ → Prop}
    [DecidablePred sent] (ht : Transfers send recv sent old) (tags : Nat → List Nat) {o : γ} (ho : old o)
    (hl : ∀ t, (tags t).length = (tags 0).length) (hne : tags 0 ≠ [])
    (htags : ∀ m c, send m 0 = .ok c → c.map Prod.fst = tags 0) : (wireOf send recv sent tags o).Lawful := by
  have key : ∀ m : {m : γ // sent m}, ∃ c, send m.1 0 = .ok c ∧ (wireOf send recv sent tags o).pack m = c.map Prod.snd ∧
      c.map Prod.fst = tags 0 ∧ recv o 0 (c ++ []) = .ok (m.1, []) := by
    intro m
    obtain ⟨c, h1, h2⟩ := ht m.1 o 0 m.2 ho
    refine ⟨c, h1, ?_, htags _ _ h1, h2 []⟩
    simp only [wireOf, h1]
  refine ⟨fun t a => ?_, fun a => ?_, fun a => ?_⟩
  · obtain ⟨c, -, h2, h3, -⟩ := key a
    rw [h2]
    show (tags t).length = _
    rw [hl, ← h3]
    simp
  · obtain ⟨c, -, h2, h3, -⟩ := key a
    rw [h2]
    intro h
    rw [List.map_eq_nil_iff] at h
    rw [h] at h3
    exact hne h3.symm
  · obtain ⟨c, -, h2, h3, h4⟩ := key a
    rw [h2]
    have e : (tags 0).zip (c.map Prod.snd) = c := by
      rw [← h3]
      clear h2 h3 h4
      induction c with
      | nil => rfl
      | cons x c ih => simp [ih]
    rw [List.append_nil] at h4
    show (match recv o 0 ((tags 0).zip (c.map Prod.snd)) with
      | .ok (m, []) => if h : sent m then some (⟨m, h⟩ : {m : γ // sent m}) else none
      | _ => none) = some a
    rw [e, h4]
    simp only []
    rw [dif_pos a.2]

theorem vec_tags {β : Type} {k : Nat} {wrap : List β → Payload α} {v : List β} {tag : Nat} {c : Chan α} (h : sendVec k wrap v tag = .ok c) :
    c.map Prod.fst = [tag, tag] := by
  unfold sendVec at h
  cases hc : mpiCount (k * v.length) with
  | none =>
    rw [hc] at h
    cases h
  | some n =>
    rw [hc] at h
    rw [← Except.ok.inj h]
    rfl

theorem mat_tags {k : Nat} (m : Mat α) (tag : Nat) (c : Chan α) (h : sendMat k m tag = .ok c) :
    c.map Prod.fst = [tag, tag + 1, tag + 2, tag + 2] := by
  unfold sendMat at h
  cases hd : sendVec k Payload.elements m.data (tag + 2) with
  | error e =>
    rw [hd] at h
    cases h
  | ok d =>
    rw [hd] at h
    rw [← Except.ok.inj h, List.map_append, vec_tags hd]
    rfl

theorem crs_tags {k : Nat} (m : Crs α) (tag : Nat) (c : Chan α) (h : sendCrs k m tag = .ok c) :
    c.map Prod.fst = [tag, tag + 1, tag + 2, tag + 2, tag + 3, tag + 3, tag + 4, tag + 4] := by
  unfold sendCrs at h
  cases h1 : sendVec 1 Payload.indices m.rowptr (tag + 2) (α := α) with
  | error e =>
    rw [h1] at h
    cases h
  | ok a =>
    cases h2 : sendVec 1 Payload.indices m.colind (tag + 3) (α := α) with
    | error e =>
      rw [h1, h2] at h
      cases h
    | ok b =>
      cases h3 : sendVec k Payload.elements m.values (tag + 4) with
      | error e =>
        rw [h1, h2, h3] at h
        cases h
      | ok d =>
        rw [h1, h2, h3] at h
        rw [← Except.ok.inj h, List.map_append, List.map_append, List.map_append, vec_tags h1, vec_tags h2, vec_tags h3]
        rfl

instance (k : Nat) : DecidablePred (FitsMat (α := α) k) := fun _ => inferInstanceAs (Decidable (_ < _))
instance (k : Nat) : DecidablePred (FitsCrs (α := α) k) := fun _ => inferInstanceAs (Decidable (_ ∧ _))

/-- **C103** Matrices can be gathered (C08): the objects that are gathered are received into objects that are not too
large, and `Gather.gather_correct` holds for this message format, whose tags `t`, `t + 1`, `t + 2` are shared by the
objects `t`, `t + 1`, `t + 2`. -/
theorem mat_gather [Zero α] {k : Nat} (hk : 0 < k) (o : Mat α) (ho : o.data.length < 2 ^ 32) :
    (wireOf (sendMat k) (recvMat k) (FitsMat k) (fun t => [t, t + 1, t + 2, t + 2]) o).Lawful :=
  wire_lawful (mat_transfers hk) _ ho (fun _ => rfl) (by simp) fun m c h => mat_tags m 0 c h

/-- **C103** Sparse matrices can be gathered. -/
theorem crs_gather [Zero α] {k : Nat} (hk : 0 < k) (o : Crs α)
    (ho : o.rowptr.length < 2 ^ 32 ∧ o.colind.length < 2 ^ 32 ∧ o.values.length < 2 ^ 32) :
    (wireOf (sendCrs k) (recvCrs k) (FitsCrs k)
      (fun t => [t, t + 1, t + 2, t + 2, t + 3, t + 3, t + 4, t + 4]) o).Lawful :=
  wire_lawful (crs_transfers hk) _ ho (fun _ => rfl) (by simp) fun m c h => crs_tags m 0 c h

/-! ## `bcast` -/

theorem join_replicate (n r c : Nat) (d : List α) :
    joinMat (List.replicate n r) (List.replicate n c) (List.replicate n d) = List.replicate n ⟨r, c, d⟩ := by
  unfold joinMat
  rw [List.zip_replicate', List.zipWith_replicate, Nat.min_self]

/-- **C103** `bcast` of a matrix: all ranks get the matrix of the root, whatever matrices they had. -/
theorem bcastMat_spec [Zero α] {root : Nat} {world : List (Mat α)} {m : Mat α} (hm : world[root]? = some m)
    (h : m.data.length < 2 ^ 31) : bcastMat root world = .ok (List.replicate world.length m) := by
  unfold bcastMat
  rw [bcastOne_spec (x := m.nrow) (by rw [List.getElem?_map, hm]; rfl), bcastOne_spec (x := m.ncol) (by rw [List.getElem?_map, hm]; rfl),
    bcastVec_spec (b := m.data) (by rw [List.getElem?_map, hm]; rfl) h]
  simp only [bind, Except.bind, pure, Except.pure, List.length_map, join_replicate]

/-- **C103** `bcast` of a matrix of complex numbers, if all ranks have matrices with as many elements as the root. -/
theorem bcastMatComplex_spec {root n : Nat} {world : List (Mat (α × α))} {m : Mat (α × α)} (hm : world[root]? = some m)
    (hn : ∀ x ∈ world, x.data.length = n) (h : n < 2 ^ 30) :
    bcastMatComplex root world = .ok (List.replicate world.length m) := by
  unfold bcastMatComplex
  rw [bcastOne_spec (x := m.nrow) (by rw [List.getElem?_map, hm]; rfl), bcastOne_spec (x := m.ncol) (by rw [List.getElem?_map, hm]; rfl),
    bcastComplex_spec (b := m.data) (n := n) (by rw [List.getElem?_map, hm]; rfl)
      (by intro v hv; obtain ⟨x, hx, rfl⟩ := List.mem_map.1 hv; exact hn x hx) h]
  simp only [bind, Except.bind, pure, Except.pure, List.length_map, join_replicate]

/-- **C103** The number of elements of a complex matrix is not sent: a rank with another one (a matrix that was default
constructed, say) makes the call invalid. -/
theorem bcastMatComplex_fails {root : Nat} {world : List (Mat (α × α))} {m u v : Mat (α × α)} (hm : world[root]? = some m)
    (hu : u ∈ world) (hv : v ∈ world) (h : u.data.length ≠ v.data.length) : bcastMatComplex root world = ubOut := by
  unfold bcastMatComplex
  rw [bcastOne_spec (x := m.nrow) (by rw [List.getElem?_map, hm]; rfl), bcastOne_spec (x := m.ncol) (by rw [List.getElem?_map, hm]; rfl),
    bcastComplex_fails (List.mem_map_of_mem (f := Mat.data) hu) (List.mem_map_of_mem (f := Mat.data) hv) h]
  rfl

example : bcastMat 1 [⟨2, 1, [9, 9]⟩, ⟨1, 2, [3, 4]⟩, ⟨0, 0, []⟩] = .ok (List.replicate 3 (⟨1, 2, [3, 4]⟩ : Mat Int)) := by decide

theorem joinCrs_replicate (n : Nat) (m : Crs α) :
    joinCrs (List.replicate n m.rowptr) (List.replicate n m.colind) (List.replicate n m.values) (List.replicate n m.nrow)
      (List.replicate n m.ncol) = List.replicate n m := by
  unfold joinCrs
  rw [List.zip_replicate', List.zip_replicate', List.zip_replicate', List.zipWith_replicate, Nat.min_self]

/-- **C103** `bcast` of a sparse matrix: all ranks get the matrix of rank 0. -/
theorem bcastCrs_spec [Zero α] {world : List (Crs α)} {m : Crs α} (hm : world[0]? = some m) (h : FitsCrs 1 m) :
    bcastCrs world = .ok (List.replicate world.length m) := by
  obtain ⟨h1, h2, h3⟩ := h
  unfold bcastCrs
  rw [bcastVec_spec (b := m.rowptr) (by rw [List.getElem?_map, hm]; rfl) h1,
    bcastVec_spec (b := m.colind) (by rw [List.getElem?_map, hm]; rfl) h2,
    bcastVec_spec (b := m.values) (by rw [List.getElem?_map, hm]; rfl) (by omega),
    bcastOne_spec (x := m.nrow) (by rw [List.getElem?_map, hm]; rfl), bcastOne_spec (x := m.ncol) (by rw [List.getElem?_map, hm]; rfl)]
  simp only [bind, Except.bind, pure, Except.pure, List.length_map, joinCrs_replicate]

/-- **C103** A sparse matrix of complex numbers, if all ranks have as many elements as rank 0. -/
theorem bcastCrsComplex_spec {n : Nat} {world : List (Crs (α × α))} {m : Crs (α × α)} (hm : world[0]? = some m) (h : FitsCrs 2 m)
    (hn : ∀ x ∈ world, x.values.length = n) : bcastCrsComplex world = .ok (List.replicate world.length m) := by
  obtain ⟨h1, h2, h3⟩ := h
  have hmn := hn m (List.mem_of_getElem? hm)
  unfold bcastCrsComplex
  rw [bcastVec_spec (b := m.rowptr) (by rw [List.getElem?_map, hm]; rfl) h1,
    bcastVec_spec (b := m.colind) (by rw [List.getElem?_map, hm]; rfl) h2,
    bcastComplex_spec (b := m.values) (n := n) (by rw [List.getElem?_map, hm]; rfl)
      (by intro v hv; obtain ⟨x, hx, rfl⟩ := List.mem_map.1 hv; exact hn x hx) (by omega),
    bcastOne_spec (x := m.nrow) (by rw [List.getElem?_map, hm]; rfl), bcastOne_spec (x := m.ncol) (by rw [List.getElem?_map, hm]; rfl)]
  simp only [bind, Except.bind, pure, Except.pure, List.length_map, joinCrs_replicate]

theorem filterMap_at {γ : Type} (w : List (List γ)) (i : Nat) (d : γ) (h : ∀ v ∈ w, i < v.length) :
    w.filterMap (fun v => v[i]?) = w.map fun v => v[i]?.getD d := by
  induction w with
  | nil => rfl
  | cons v w ih =>
    have hv := h v List.mem_cons_self
    rw [List.filterMap_cons, List.getElem?_eq_getElem hv]
    simp only [List.map_cons, List.getElem?_eq_getElem hv, Option.getD_some]
    rw [ih fun u hu => h u (List.mem_cons_of_mem _ hu)]

/-- **C103** `bcast` of a vector of objects: all ranks get the objects of the root, if all have as many. -/
theorem bcastEach_spec {γ : Type} {one : List γ → Out (List γ)} {root k : Nat} {fits : γ → Prop}
    (hone : ∀ column m, column[root]? = some m → fits m → one column = .ok (List.replicate column.length m))
    {world : List (List γ)} {b : List γ} (hb : world[root]? = some b) (hk : ∀ v ∈ world, v.length = k) (h : ∀ m ∈ b, fits m) :
    bcastEach one world = .ok (List.replicate world.length b) := by
  have hbk : b.length = k := hk b (List.mem_of_getElem? hb)
  have inv : ∀ i, i ≤ k → (List.range i).foldlM (fun (w : List (List γ)) i => do
        let column ← one (w.filterMap fun v => v[i]?)
        return List.zipWith (fun v x => v.set i x) w column) world =
      (.ok (world.map fun v => b.take i ++ v.drop i) : Out _) := by
    intro i
    induction i with
    | zero =>
      intro _
      simp [pure, Except.pure]
    | succ i ih =>
      intro hi
      have hlt : i < b.length := by omega
      rw [List.range_succ, List.foldlM_append, ih (by omega)]
      simp only [bind, Except.bind, List.foldlM_cons, List.foldlM_nil]
      rw [filterMap_at _ i b[i] (by
        intro v hv
        obtain ⟨u, hu, rfl⟩ := List.mem_map.1 hv
        have := hk u hu
        rw [List.length_append, List.length_take, List.length_drop]
        omega)]
      rw [hone _ b[i] (by
        rw [List.getElem?_map, List.getElem?_map, hb]
        simp only [Option.map_some, List.take_append_drop]
        rw [List.getElem?_eq_getElem hlt]
        rfl) (h _ (List.getElem_mem hlt))]
      simp only [pure, Except.pure]
      congr 1
      apply List.ext_getElem
      · simp
      · intro j h1 h2
        have hj : j < world.length := by simpa using h2
        have hv : (world[j]).length = k := hk _ (List.getElem_mem hj)
        simp only [List.getElem_zipWith, List.getElem_map, List.getElem_replicate]
        have e2 : b.take (i + 1) = b.take i ++ [b[i]] := List.take_succ_eq_append_getElem hlt
        simp only [e2]
        rw [List.set_append, if_neg (by rw [List.length_take]; omega), List.append_assoc]
        congr 1
        rw [List.length_take, Nat.min_eq_left (by omega), Nat.sub_self, List.drop_eq_getElem_cons (by omega : i < (world[j]).length)]
        rfl
  cases world with
  | nil => simp at hb
  | cons c cs =>
    have hc : c.length = k := hk c List.mem_cons_self
    unfold bcastEach
    simp only []
    rw [if_pos ((sameLength_iff _).2 ⟨k, hk⟩), hc, inv k (le_refl _)]
    congr 1
    rw [List.eq_replicate_iff]
    refine ⟨by simp, ?_⟩
    intro v hv
    obtain ⟨u, hu, rfl⟩ := List.mem_map.1 hv
    rw [List.take_of_length_le (by omega), List.drop_of_length_le (by rw [hk u hu]), List.append_nil]

/-- **C103** In particular vectors of matrices. -/
theorem bcast_matrices [Zero α] {root k : Nat} {world : List (List (Mat α))} {b : List (Mat α)} (hb : world[root]? = some b)
    (hk : ∀ v ∈ world, v.length = k) (h : ∀ m ∈ b, m.data.length < 2 ^ 31) :
    bcastEach (bcastMat root) world = .ok (List.replicate world.length b) :=
  bcastEach_spec (fun _ _ hm hf => bcastMat_spec hm hf) hb hk h

/-! ## `allReduce` -/

/-- **C103** `allReduce` of matrices of one shape with elements: all ranks get the matrix whose elements are the sums. -/
theorem allReduceMat_sum [AddCommMonoid α] {r c : Nat} {world : List (Mat α)} (hw : world ≠ []) (hs : ∀ m ∈ world, Dense.Shape m r c)
    (hr : 0 < r) (hc : 0 < c) (h : r * c < 2 ^ 31) :
    ∃ s, allReduceMat (· + ·) world = .ok (List.replicate world.length s) ∧ Dense.Shape s r c ∧
      ∀ i < r, ∀ j < c, s.get i j = some (world.map fun m => (m.get i j).getD 0).sum := by
  have hn : ∀ v ∈ world.map Mat.data, v.length = r * c := by
    intro v hv
    obtain ⟨m, hm, rfl⟩ := List.mem_map.1 hv
    exact (hs m hm).size
  obtain ⟨w, h1, h2, h3⟩ := allReduce_sum (world := world.map Mat.data) (by simpa using hw) hn h
  refine ⟨⟨r, c, w⟩, ?_, ⟨rfl, rfl, h2⟩, fun i hi j hj => ?_⟩
  · unfold allReduceMat
    have hany : (world.any fun m => m.nrow == 0 || m.ncol == 0) = false := by
      rw [List.any_eq_false]
      intro m hm
      have := hs m hm
      simp [this.nrow, this.ncol]
      omega
    rw [hany, h1]
    simp only [bind, Except.bind, pure, Except.pure, Bool.false_eq_true, if_false, List.length_map]
    congr 1
    apply List.ext_getElem
    · simp
    · intro k k1 k2
      have hk : k < world.length := by simpa using k2
      have hm := hs _ (List.getElem_mem hk)
      simp only [List.getElem_zipWith, List.getElem_replicate]
      rw [hm.nrow, hm.ncol]
  · have hlt : i + j * r < r * c := by
      have : (j + 1) * r ≤ c * r := Nat.mul_le_mul_right _ hj
      rw [Nat.mul_comm r c]
      rw [Nat.add_mul, Nat.one_mul] at this
      omega
    unfold Mat.get
    rw [if_pos ⟨hi, hj⟩]
    show w[i + j * r]? = _
    rw [h3 _ hlt, List.map_map]
    congr 2
    apply List.map_congr_left
    intro m hm
    have := hs m hm
    simp only [Function.comp, this.nrow, this.ncol, if_pos (And.intro hi hj)]
    rw [List.getD_eq_getElem?_getD]

/-- **C103** A matrix without elements is undefined behaviour: its first element is asked for. -/
theorem allReduceMat_empty_fails (op : α → α → α) {world : List (Mat α)} {m : Mat α} (hm : m ∈ world) (h : m.nrow = 0 ∨ m.ncol = 0) :
    allReduceMat op world = ubOut := by
  unfold allReduceMat
  rw [if_pos]
  rw [List.any_eq_true]
  exact ⟨m, hm, by simpa using h⟩

/-- **C103** Complex matrices: real and imaginary parts are combined. -/
theorem allReduceMatComplex_spec (op : α → α → α) {r c : Nat} {world : List (Mat (α × α))} (hw : world ≠ [])
    (hs : ∀ m ∈ world, Dense.Shape m r c) (h : r * c < 2 ^ 30) :
    allReduceMatComplex op world = allReduceMat (fun x y => (op x.1 y.1, op x.2 y.2)) world := by
  unfold allReduceMatComplex allReduceMat
  rw [allReduceComplex_spec op (n := r * c) (by simpa using hw) (by
    intro v hv
    obtain ⟨m, hm, rfl⟩ := List.mem_map.1 hv
    exact (hs m hm).size) h]

/-- **C103** Only the numbers of elements have to be the same: matrices of other shapes are combined by position in
memory. -/
theorem allReduceMat_shape_fails : allReduceMat (· + ·) [⟨1, 2, [1, 2]⟩, ⟨2, 1, [10, 20]⟩] =
    .ok [(⟨1, 2, [11, 22]⟩ : Mat Int), ⟨2, 1, [11, 22]⟩] := by decide

example : allReduceMat (· + ·) [⟨1, 2, [1, 2]⟩, ⟨1, 2, [10, 20]⟩] = .ok [(⟨1, 2, [11, 22]⟩ : Mat Int), ⟨1, 2, [11, 22]⟩] := by decide

/-! ## Cases -/

example := allReduceMatComplex_spec (fun x y : Int => x + y) (r := 1) (c := 2) (world := [⟨1, 2, [(1, 2), (3, 4)]⟩, ⟨1, 2, [(5, 6), (7, 8)]⟩])
  (by simp) (by
    intro m hm
    simp only [List.mem_cons, List.not_mem_nil, or_false] at hm
    rcases hm with rfl | rfl <;> exact ⟨rfl, rfl, rfl⟩) (by norm_num)
example := allReduceMat_sum (α := Int) (r := 1) (c := 2) (world := [⟨1, 2, [1, 2]⟩, ⟨1, 2, [10, 20]⟩])
  (by simp) (by
    intro m hm
    simp only [List.mem_cons, List.not_mem_nil, or_false] at hm
    rcases hm with rfl | rfl <;> exact ⟨rfl, rfl, rfl⟩) (by norm_num) (by norm_num) (by norm_num)
example : allReduceMat (· + ·) [(⟨0, 2, []⟩ : Mat Int)] = ubOut := allReduceMat_empty_fails _ (m := ⟨0, 2, []⟩) (by simp) (.inl rfl)
example := bcastMat_spec (α := Int) (root := 1) (world := [⟨2, 1, [9, 9]⟩, ⟨1, 2, [3, 4]⟩]) (m := ⟨1, 2, [3, 4]⟩) rfl (by norm_num)
example := bcastMatComplex_spec (α := Int) (root := 1) (n := 1) (world := [⟨1, 1, [(9, 9)]⟩, ⟨1, 1, [(3, 4)]⟩]) (m := ⟨1, 1, [(3, 4)]⟩) rfl
  (by simp) (by norm_num)
example : bcastMatComplex 1 [(⟨0, 0, []⟩ : Mat (Int × Int)), ⟨1, 1, [(3, 4)]⟩] = ubOut :=
  bcastMatComplex_fails (m := ⟨1, 1, [(3, 4)]⟩) (u := ⟨0, 0, []⟩) (v := ⟨1, 1, [(3, 4)]⟩) rfl (by simp) (by simp) (by simp)
example := bcast_matrices (α := Int) (root := 1) (k := 1) (world := [[⟨2, 1, [9, 9]⟩], [⟨1, 2, [3, 4]⟩]]) (b := [⟨1, 2, [3, 4]⟩]) rfl (by simp) (by simp)
example := bcastCrs_spec (α := Int) (world := [⟨[0, 1, 2], [1, 0], [5, 6], 2, 2⟩, ⟨[0], [], [], 0, 0⟩]) (m := ⟨[0, 1, 2], [1, 0], [5, 6], 2, 2⟩) rfl
  (by simp [FitsCrs])
example := bcastCrsComplex_spec (α := Int) (n := 2) (world := [⟨[0, 1, 2], [1, 0], [(5, 6), (7, 8)], 2, 2⟩, ⟨[0, 2], [0, 1], [(0, 0), (0, 1)], 1, 2⟩])
  (m := ⟨[0, 1, 2], [1, 0], [(5, 6), (7, 8)], 2, 2⟩) rfl (by simp [FitsCrs]) (by simp)
example := mat_transfers (α := Int) (k := 1) one_pos
example := crs_transfers (α := Int) (k := 1) one_pos
example := mat_gather (α := Int) (k := 1) one_pos ⟨2, 1, [9, 9]⟩ (by norm_num)
example := crs_gather (α := Int) (k := 1) one_pos ⟨[0, 1, 2], [1, 0], [5, 6], 2, 2⟩ (by simp)
example := all_spec (mat_transfers (α := Int) (k := 1) one_pos) [(⟨1, 2, [3, 4]⟩, ⟨0, 0, []⟩, 1), (⟨1, 1, [5]⟩, ⟨2, 1, [9, 9]⟩, 2)]
  (by simp [FitsMat]) (by simp)

end Verif.Collective
