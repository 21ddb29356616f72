import Verif.IoNg.PropsStore

/-!
# Reading a value as one of another type
-/

namespace Verif.IoNg

variable {α : Type} [DecidableEq α] [Zero α]

/-- **C51, violated part** Reading a number where several are stored writes past its end. -/
theorem read_many_fails (h : H5 α) (f : File α) (n : Name) (h0 : n ≠ []) (hn : ∀ w ∈ n, IsPart w) (ty ty' : Ty) (xs : List (Num α)) (hx : 2 ≤ xs.length)
    (hd : f ("Def".toList :: n) = some (.data (Leaf.vec ty' xs).data)) : Leaf.read h f n.text (.scalar ty) = ubOut := by
  match xs, hx with
  | x :: y :: zs, _ =>
    simp only [Leaf.read, readScalar, openDataSet_eq f _ _ (path_inDef n h0 hn), hd, Leaf.data, bind, Except.bind]
    rfl

/-- **C51, violated part** Reading a vector of `bool` where fewer than four bytes are stored reads past the end. -/
theorem read_bools_short_fails (h : H5 α) (f : File α) (n : Name) (h0 : n ≠ []) (hn : ∀ w ∈ n, IsPart w) (bytes : List (BitVec 8)) (h1 : bytes ≠ [])
    (h4 : bytes.length < 4) (hd : f ("Def".toList :: n) = some (.data (Leaf.vec .uchar (bytes.map byteNum)).data))
    (hm : f ("Def".toList :: mark n) = letterNode (.vec .uchar)) : Leaf.read h f n.text .bools = ubOut := by
  simp only [Leaf.read, readBools]
  rw [readVector_ok h f n h0 hn .uchar (bytes.map byteNum) (by simpa using h1) (by
      intro x hx
      obtain ⟨c, _, rfl⟩ := List.mem_map.1 hx
      simp only [byteNum, Num.Fits]
      have := c.isLt
      omega) hd hm]
  simp only [bind, Except.bind, mapM_numByte, ofThrow]
  unfold convertToBoolean
  rw [if_pos h4]
  rfl

/-! ## Concrete cases of the hypotheses: a file with three bytes, or two numbers, at `/Def/v`. -/

example (h : H5 Int) := read_bools_short_fails h
  (fun p => if p = ["Def".toList, "v".toList] then some (.data (Leaf.vec .uchar (([1#8, 2#8, 3#8] : List (BitVec 8)).map byteNum)).data)
    else if p = "Def".toList :: mark ["v".toList] then letterNode (.vec .uchar) else none)
  ["v".toList] (by decide) (by simp [IsPart]) [1#8, 2#8, 3#8] (by decide) (by decide) (if_pos rfl)
  (by rw [if_neg (by decide +kernel), if_pos rfl])
example (h : H5 Int) := read_many_fails h
  (fun p => if p = ["Def".toList, "v".toList] then some (.data (Leaf.vec .int [.int 1, .int 2]).data) else none)
  ["v".toList] (by decide) (by simp [IsPart]) .int .int [.int 1, .int 2] (by decide) (if_pos rfl)

end Verif.IoNg
