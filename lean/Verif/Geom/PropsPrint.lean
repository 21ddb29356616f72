import Verif.Geom.ModelPrint
import Verif.Geom.PropsTerm
import Verif.TextIo.PropsMat

/-!
# C120: geometries as text
-/

namespace Verif.Geom

open Verif.Loop Verif.Dense

variable {α : Type}

/-! ## Loops that print -/

theorem loop_print {β : Type} (n : Nat) (f : Nat → List β → Option (List β)) (g : Nat → List β) (s : List β)
    (h : ∀ i s, i < n → f i s = some (s ++ g i)) : loopN n f s = some (s ++ (List.range n).flatMap g) := by
  induction n with
  | zero => simp [loopN]
  | succ n ih =>
    rw [loopN, ih (fun i s hi => h i s (by omega)), List.range_succ, List.flatMap_append]
    simp only [Option.bind_some]
    rw [h n _ (by omega)]
    simp

theorem fold_print {β γ : Type} (l : List γ) (f : γ → Option (List β)) (g : γ → List β) (s : List β) (h : ∀ x ∈ l, f x = some (g x)) :
    l.foldlM (fun os x => (f x).map (os ++ ·)) s = some (s ++ l.flatMap g) := by
  induction l generalizing s with
  | nil => simp
  | cons x l ih =>
    rw [List.foldlM_cons, h x List.mem_cons_self]
    simp only [Option.map_some, bind, Option.bind_some]
    rw [ih _ fun y hy => h y (List.mem_cons_of_mem _ hy)]
    simp

/-! ## Specification -/

/-- The matrix of the connectors, as text: one line for each site and orbital, the orbital changing first, and in it one number and a blank
for each site and orbital. -/
def matrixLines (text : α → List Char) (N : Nat) (orbOf : Nat → Nat) (V : Nat → Nat → Nat → Nat → α) : List Char :=
  (List.range N).flatMap fun i => (List.range (orbOf i)).flatMap fun e =>
    ((List.range N).flatMap fun j => (List.range (orbOf j)).flatMap fun e' => text (V i e j e') ++ [' ']) ++ ['\n']

/-! ## Properties -/

variable [CommRing α] [StarRing α]

/-- **C120** What `print` gives is the matrix of the connectors: the value of each pair of sites and orbitals. -/
theorem print_spec (text : α → List Char) (h0 : text 0 = ['0']) (b : Base) (N orbs : Nat) (const : Bool) (hg : Good b N orbs const)
    (dirs : List (DirData α)) (hd : DataOk b orbs const dirs) (orbOf : Nat → Nat)
    (ho : ∀ i e, i < N → e < orbOf i → e < orbs ∧ ∃ k, b.index i e orbs = some (some k)) :
    ∃ (cached : Mat α) (V : Nat → Nat → Nat → Nat → α), cacheValues b N orbs const dirs = some cached ∧
      (∀ i e j e', i < N → j < N → e < orbOf i → e' < orbOf j → calcValue b orbs const dirs i e j e' = some (V i e j e')) ∧
      termPrint text b orbOf N orbs cached = some ("#orbital changes first\n".toList ++ matrixLines text N orbOf V) := by
  obtain ⟨cached, hc, hv⟩ := cache_spec b N orbs const hg dirs hd
  refine ⟨cached, fun i e j e' => (calcValue b orbs const dirs i e j e').getD 0, hc, ?_, ?_⟩
  · intro i e j e' hi hj he he'
    obtain ⟨o1, k1, i1⟩ := ho i e hi he
    obtain ⟨o2, k2, i2⟩ := ho j e' hj he'
    obtain ⟨v, e1, _⟩ := hv i j e e' k1 k2 hi hj o1 o2 i1 i2
    rw [e1]
    show some v = some ((calcValue b orbs const dirs i e j e').getD 0)
    rw [e1]
    rfl
  · unfold termPrint matrixLines
    refine loop_print _ _ _ _ fun i s hi => ?_
    refine loop_print _ _ _ _ fun e s he => ?_
    have : ∀ os, loopN N (fun j os => loopN (orbOf j) (fun dof2 os => do
        let c ← b.connected i j
        if !c then return os ++ "0 ".toList
        else do
          let v ← termValue b orbs cached i e j dof2
          return os ++ text v ++ [' ']) os) os =
        some (os ++ (List.range N).flatMap fun j => (List.range (orbOf j)).flatMap fun e' =>
          text ((calcValue b orbs const dirs i e j e').getD 0) ++ [' ']) := by
      intro os
      refine loop_print _ _ _ _ fun j s hj => ?_
      refine loop_print _ _ _ _ fun e' s he' => ?_
      obtain ⟨o1, k1, i1⟩ := ho i e hi he
      obtain ⟨o2, k2, i2⟩ := ho j e' hj he'
      obtain ⟨v, e1, e2⟩ := hv i j e e' k1 k2 hi hj o1 o2 i1 i2
      obtain ⟨c, c1, _⟩ := hg.conn i j hi hj
      rw [c1]
      cases c with
      | false =>
        rw [calc_off b orbs const dirs i j e e' c1]
        simp [h0]
      | true =>
        rw [e1, e2]
        simp
    rw [this]
    simp

/-- **C120** The text of a term: the directions, then the matrix. -/
theorem term_text (text : α → List Char) (h0 : text 0 = ['0']) (b : Base) (N orbs : Nat) (const : Bool) (hg : Good b N orbs const)
    (dirs : List (DirData α)) (hd : DataOk b orbs const dirs) (orbOf : Nat → Nat)
    (ho : ∀ i e, i < N → e < orbOf i → e < orbs ∧ ∃ k, b.index i e orbs = some (some k)) (ds : List (PrintAux × DirData α))
    (T : PrintAux × DirData α → List Char) (hT : ∀ d ∈ ds, dirText text d.1 d.2 = some (T d)) :
    ∃ (cached : Mat α) (V : Nat → Nat → Nat → Nat → α), cacheValues b N orbs const dirs = some cached ∧
      (∀ i e j e', i < N → j < N → e < orbOf i → e' < orbOf j → calcValue b orbs const dirs i e j e' = some (V i e j e')) ∧
      termText text b orbOf N orbs cached ds = some ("#GeometryDirections=".toList ++ Nat.toDigits 10 ds.length ++ "\n".toList ++
        ds.flatMap T ++ "#orbital changes first\n".toList ++ matrixLines text N orbOf V) := by
  obtain ⟨cached, V, h1, h2, h3⟩ := print_spec text h0 b N orbs const hg dirs hd orbOf ho
  refine ⟨cached, V, h1, h2, ?_⟩
  unfold termText
  rw [fold_print ds (fun d => dirText text d.1 d.2) T _ hT, h3]
  simp [num]

omit [CommRing α] [StarRing α] in
/-- **C120** The text of a direction with matrices. -/
theorem dir_matrices (text : α → List Char) (a : PrintAux) (d : DirData α) (ha : a.orbitals > 1 ∨ a.idof = .specific)
    (M : Mat α → List Char) (hM : ∀ m ∈ d.matrices, TextIo.matText text m = some (M m)) :
    dirText text a d = some ("#GeometryDirectionAuxiliary\n".toList ++ "constantValues=".toList ++ (if a.const then ['1'] else ['0']) ++
      "\n".toList ++ "dirId=".toList ++ Nat.toDigits 10 a.dirId ++ "\n".toList ++ "edof=".toList ++
      (if a.idof = .specific then ['1'] else ['0']) ++ "\n".toList ++ "#GeometryMatrixSize=".toList ++ Nat.toDigits 10 d.matrices.length ++ "\n".toList ++ d.matrices.flatMap M) := by
  unfold dirText
  simp only
  rw [if_neg (not_not.2 ha), fold_print _ _ _ _ hM]
  have hc : num (if a.const then 1 else 0) = (if a.const then ['1'] else ['0']) := by
    cases a.const <;> decide
  have hi : num a.idof.val = (if a.idof = .specific then ['1'] else ['0']) := by
    cases a.idof <;> decide
  unfold auxText
  rw [hc, hi]
  unfold num
  simp only [List.append_assoc]

omit [CommRing α] [StarRing α] in
/-- **C120** (finding) The numbers of a direction are never printed: for the geometries that have numbers (all but `LongRange`), the text is
the same whatever they are. -/
theorem dir_numbers_fails (text : α → List Char) (a : PrintAux) (ha : a.idof = .specific) (xs ys : List α) (ms : List (Mat α)) :
    dirText text a ⟨xs, ms⟩ = dirText text a ⟨ys, ms⟩ := by
  unfold dirText
  simp only
  rw [if_neg (not_not.2 (.inr ha)), if_neg (not_not.2 (.inr ha))]

omit [CommRing α] [StarRing α] in
/-- **C120** The text of a geometry: its terms one after another. -/
theorem geo_text (linSize : Nat) (terms : List (Option (List Char))) (T : Option (List Char) → List Char)
    (h : ∀ t ∈ terms, t = some (T t)) : geoText linSize terms = some ("#GeometrySize=".toList ++ Nat.toDigits 10 linSize ++
      "\n".toList ++ "#GeometryTerms=".toList ++ Nat.toDigits 10 terms.length ++ "\n".toList ++ terms.flatMap T) := by
  unfold geoText
  refine (fold_print terms id T _ h).trans ?_
  unfold num
  simp only [List.append_assoc]

theorem default_all (N orbs : Nat) : ∀ i e, i < N → e < orbs → e < orbs ∧ ∃ k, defaultIndex i e orbs = some (some k) := by
  intro i e _ he
  exact ⟨he, _, by unfold defaultIndex; rw [if_pos he]⟩

/-- **C120** For chains and ladders with several orbitals, and for the geometry in which only some sites have two. -/
theorem print_kinds : (∀ (g : LongChain) (orbs : Nat), ∀ i e, i < g.linSize → e < orbs → e < orbs ∧
      ∃ k, (chainBase g).index i e orbs = some (some k)) ∧
    (∀ (g : Ladder) (orbs : Nat), ∀ i e, i < g.linSize → e < orbs → e < orbs ∧ ∃ k, (ladderBase g).index i e orbs = some (some k)) ∧
    ∀ (N : Nat) (sc : Int), ∀ i e, i < N → e < KTwo.orbitals 2 i → e < 2 ∧ ∃ k, (ktwoBase N sc).index i e 2 = some (some k) := by
  refine ⟨fun g orbs => default_all _ _, fun g orbs => default_all _ _, ?_⟩
  intro N sc i e hi he
  obtain ⟨k, h, _⟩ := (KTwo.ktwo_index N).1 i e hi he
  refine ⟨?_, k, h⟩
  unfold KTwo.orbitals at he
  split at he <;> omega

/-- A chain of three sites. -/
example : termPrint (fun n : Int => if n < 0 then '-' :: Nat.toDigits 10 n.natAbs else Nat.toDigits 10 n.natAbs)
    (chainBase ⟨3, false, 1⟩) (fun _ => 1) 3 1 ⟨3, 3, [0, 7, 0, 7, 0, -2, 0, -2, 0]⟩ =
    some "#orbital changes first\n0 7 0 \n7 0 -2 \n0 -2 0 \n".toList ∧
    cacheValues (chainBase ⟨3, false, 1⟩) 3 1 false [⟨[(7 : Int), -2], []⟩] = some ⟨3, 3, [0, 7, 0, 7, 0, -2, 0, -2, 0]⟩ := by
  constructor
  · decide +kernel
  · rfl

end Verif.Geom
