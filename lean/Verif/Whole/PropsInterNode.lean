import Verif.Whole.ModelInterNode
import Verif.Whole.PropsRange
import Verif.Parallel.Props

/-!
# C143: the program examples/internode.cpp
-/

namespace Verif.Whole.InterNode

open Verif.Parallel Verif.Whole.Range

/-- Numbers in decimal notation, without anything between them. -/
def numbers (l : List Nat) : List Char := l.flatMap (Nat.toDigits 10)

theorem printAll_eq (l : List Nat) : printAll l = numbers l := by
  have : ∀ (l : List Nat) (os : List Char), l.foldl (fun os i => os ++ digits i) os = os ++ numbers l := by
    intro l
    induction l with
    | nil => intro os; simp [numbers]
    | cons i l ih => intro os; rw [List.foldl_cons, ih]; simp [numbers, digits]
  exact (this l []).trans (by simp)

/-- **C143** Without MPI both loops print the numbers below the argument. -/
theorem serial_prints (prog name : List Char) (n : Nat) (more : List (List Char)) (hn : n ≤ 2147483647) :
    main none (some name) (prog :: Nat.toDigits 10 n :: more) =
      .ok ⟨numbers (List.range n) ++ "\n--------------------------\n".toList ++ numbers (List.range n) ++
        "\n--------------------------\n".toList ++ name ++ ['\n'], [], 0⟩ := by
  simp only [main, number_digits n hn, bind, Except.bind, parallelFor, serialCalls, List.map_map, Function.comp_def, List.map_id', printAll_eq,
    printHost, ← List.range_eq_range', Nat.sub_zero, pure, Except.pure]
  rw [show "\n--------------------------\n".toList = line from rfl]
  simp only [List.append_assoc]

/-- **C143** With MPI every process prints all numbers first; after the line, each number is printed by exactly one process, and the
processes one after the other print them in order. -/
theorem mpi_prints (prog : List Char) (name : Nat → List Char) (n size : Nat) (more : List (List Char)) (hn : n ≤ 2147483647)
    (hs : 0 < size) :
    ∃ share : Nat → List Nat, (List.range size).flatMap share = List.range n ∧
      ∀ rank, main (some (size, rank)) (some (name rank)) (prog :: Nat.toDigits 10 n :: more) =
        .ok ⟨numbers (List.range n) ++ "\n--------------------------\n".toList ++ numbers (share rank) ++
          "\n--------------------------\n".toList ++ name rank ++ ['\n'], [], 0⟩ := by
  obtain ⟨share, h1, h2⟩ := interNode_each_task_once 0 n size hs (Nat.zero_le _)
  refine ⟨share, by rw [h2, Nat.sub_zero, List.range_eq_range'], fun rank => ?_⟩
  simp only [main, number_digits n hn, bind, Except.bind, parallelFor, h1, Lapack.acc, printAll_eq, printHost, pure,
    Except.pure]
  rw [show "\n--------------------------\n".toList = line from rfl]
  simp only [List.append_assoc]

/-- **C143** A host without a name is reported on the standard error, and everything else is printed. -/
theorem no_host (mpi : Option (Nat × Nat)) (prog name : List Char) (argv : List (List Char)) (r : Result) (ha : argv ≠ [])
    (h : main mpi (some name) (prog :: argv) = .ok r) :
    ∃ o, r.out = o ++ name ++ ['\n'] ∧ r.err = [] ∧
      main mpi none (prog :: argv) = .ok ⟨o, prog ++ ": Could not gethostname\n".toList, r.code⟩ := by
  match argv, ha with
  | a :: more, _ =>
    simp only [main, bind, Except.bind] at h ⊢
    cases e1 : number a with
    | error b => rw [e1] at h; cases h
    | ok n =>
      rw [e1] at h
      simp only at h ⊢
      cases e2 : parallelFor mpi 0 n with
      | error b => rw [e2] at h; cases h
      | ok mine =>
        rw [e2] at h
        cases h
        refine ⟨printAll (List.range n) ++ line ++ printAll mine ++ line, ?_, rfl, ?_⟩
        · simp [printHost]
        · simp [printHost, pure, Except.pure]

/-- **C143** Without an argument the program prints how to call it and returns one. -/
theorem usage (mpi : Option (Nat × Nat)) (host : Option (List Char)) (prog : List Char) :
    main mpi host [prog] = .ok ⟨[], "USAGE ".toList ++ prog ++ " number\n".toList, 1⟩ := rfl

/-- The hypotheses are met: five numbers and two processes. -/
example : ((List.range 2).map fun rank => main (some (2, rank)) (some "node".toList) ["x".toList, "5".toList]) =
    [.ok ⟨"01234\n--------------------------\n012\n--------------------------\nnode\n".toList, [], 0⟩,
      .ok ⟨"01234\n--------------------------\n34\n--------------------------\nnode\n".toList, [], 0⟩] := by
  decide +kernel

end Verif.Whole.InterNode
