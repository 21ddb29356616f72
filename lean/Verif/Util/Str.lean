import Mathlib.Data.List.Basic
import Mathlib.Data.List.SplitOn

/-!
# `std::string` operations used by the library

Strings are lists of characters; `npos` is `none`.
-/

namespace Verif.Str

/-- First position `≥ pos` whose character satisfies `p`. -/
def findFrom (p : Char → Bool) (s : List Char) (pos : Nat) : Option Nat :=
  ((s.drop pos).findIdx? p).map (· + pos)

/-- `s.find_first_of(delims, pos)`; searching from `npos` gives `npos`. -/
def findFirstOf (s delims : List Char) (pos : Option Nat) : Option Nat :=
  pos.bind fun q => findFrom (fun c => delims.contains c) s q

/-- `s.find_first_not_of(delims, pos)`. -/
def findFirstNotOf (s delims : List Char) (pos : Option Nat) : Option Nat :=
  pos.bind fun q => findFrom (fun c => !delims.contains c) s q

/-- `s.substr(pos, len)`; `none` is the exception for `pos > s.size()`. -/
def substr (s : List Char) (pos len : Nat) : Option (List Char) :=
  if pos ≤ s.length then some ((s.drop pos).take len) else none

/-- `s.substr(pos)`. -/
def substrFrom (s : List Char) (pos : Nat) : Option (List Char) :=
  if pos ≤ s.length then some (s.drop pos) else none

/-- `s.find(pat, pos)`: first position `≥ pos` where `pat` occurs. -/
def find (s pat : List Char) (pos : Nat) : Option Nat :=
  ((List.range (s.length + 1 - pos)).find? fun i => decide (pat <+: s.drop (pos + i))).map (· + pos)

/-- `s.replace(pos, len, new)`; `none` is the exception for `pos > s.size()`. -/
def replace (s : List Char) (pos len : Nat) (new : List Char) : Option (List Char) :=
  if pos ≤ s.length then some (s.take pos ++ new ++ s.drop (pos + len)) else none

/-- `isdigit` in the C locale. -/
def isDigit (c : Char) : Bool := '0' ≤ c && c ≤ '9'

/-! ### Facts -/

theorem findFrom_none {p : Char → Bool} {s : List Char} {pos : Nat} (h : findFrom p s pos = none) :
    ∀ c ∈ s.drop pos, p c = false := by
  unfold findFrom at h
  rw [Option.map_eq_none_iff, List.findIdx?_eq_none_iff] at h
  exact h

theorem findFrom_some {p : Char → Bool} {s : List Char} {pos i : Nat} (h : findFrom p s pos = some i) :
    ∃ pre c rest, s.drop pos = pre ++ c :: rest ∧ i = pos + pre.length ∧ p c = true ∧
      (∀ x ∈ pre, p x = false) ∧ s.drop i = c :: rest := by
  unfold findFrom at h
  obtain ⟨j, hj, rfl⟩ := Option.map_eq_some_iff.1 h
  rw [List.findIdx?_eq_some_iff_getElem] at hj
  obtain ⟨hlt, hp, hn⟩ := hj
  refine ⟨(s.drop pos).take j, (s.drop pos)[j], (s.drop pos).drop (j + 1), ?_, ?_, hp, ?_, ?_⟩
  · rw [← List.drop_eq_getElem_cons hlt, List.take_append_drop]
  · rw [List.length_take]; omega
  · intro x hx
    obtain ⟨k, hk, rfl⟩ := List.getElem_of_mem hx
    rw [List.length_take] at hk
    rw [List.getElem_take]
    have := hn k (by omega)
    simpa using this
  · rw [← List.drop_eq_getElem_cons hlt, List.drop_drop, Nat.add_comm]

/-- The pieces between delimiters that are not empty. -/
def pieces (p : Char → Bool) (s : List Char) : List (List Char) := (s.splitOnP p).filter (· ≠ [])

theorem splitOnP_ne_nil' (p : Char → Bool) (s : List Char) : s.splitOnP p ≠ [] := List.splitOnP_ne_nil p s

theorem pieces_nil (p : Char → Bool) : pieces p [] = [] := by simp [pieces]

theorem pieces_delim (p : Char → Bool) (c : Char) (s : List Char) (h : p c = true) :
    pieces p (c :: s) = pieces p s := by
  simp [pieces, List.splitOnP_cons, h]

theorem pieces_skip (p : Char → Bool) (pre s : List Char) (h : ∀ c ∈ pre, p c = true) :
    pieces p (pre ++ s) = pieces p s := by
  induction pre with
  | nil => rfl
  | cons c pre ih =>
    rw [List.cons_append, pieces_delim p c _ (h c (by simp)), ih (fun c hc => h c (by simp [hc]))]

theorem splitOnP_token (p : Char → Bool) (tok : List Char) (ht : ∀ x ∈ tok, p x = false) :
    tok.splitOnP p = [tok] := by
  induction tok with
  | nil => simp
  | cons a tok ih =>
    rw [List.splitOnP_cons, if_neg (by simp [ht a (by simp)]), ih (fun x hx => ht x (by simp [hx]))]
    rfl

theorem splitOnP_token_delim (p : Char → Bool) (tok : List Char) (ht : ∀ x ∈ tok, p x = false) (d : Char)
    (hd : p d = true) (s : List Char) : (tok ++ d :: s).splitOnP p = tok :: s.splitOnP p := by
  induction tok with
  | nil => simp [List.splitOnP_cons, hd]
  | cons a tok ih =>
    rw [List.cons_append, List.splitOnP_cons, if_neg (by simp [ht a (by simp)]),
      ih (fun x hx => ht x (by simp [hx]))]
    rfl

theorem pieces_token (p : Char → Bool) (tok : List Char) (hne : tok ≠ []) (ht : ∀ x ∈ tok, p x = false) :
    pieces p tok = [tok] := by
  simp [pieces, splitOnP_token p tok ht, hne]

theorem pieces_token_delim (p : Char → Bool) (tok : List Char) (hne : tok ≠ []) (ht : ∀ x ∈ tok, p x = false)
    (d : Char) (hd : p d = true) (s : List Char) : pieces p (tok ++ d :: s) = tok :: pieces p (d :: s) := by
  rw [pieces_delim p d s hd]
  simp [pieces, splitOnP_token_delim p tok ht d hd s, hne]

theorem find_some {s pat : List Char} {pos i : Nat} (h : find s pat pos = some i) :
    pos ≤ i ∧ i ≤ s.length ∧ pat <+: s.drop i ∧ ∀ j, pos ≤ j → j < i → ¬ pat <+: s.drop j := by
  unfold find at h
  obtain ⟨k, hk, rfl⟩ := Option.map_eq_some_iff.1 h
  rw [List.find?_eq_some_iff_getElem] at hk
  obtain ⟨hp, m, hm, rfl, hn⟩ := hk
  simp only [List.length_range] at hm
  simp only [List.getElem_range, decide_eq_true_eq] at hp
  simp only [List.getElem_range]
  refine ⟨by omega, by omega, by rwa [Nat.add_comm], ?_⟩
  intro j h1 h2
  have := hn (j - pos) (by omega)
  simp only [List.getElem_range, Bool.not_eq_true', decide_eq_false_iff_not] at this
  rwa [show pos + (j - pos) = j by omega] at this

theorem find_none {s pat : List Char} {pos : Nat} (h : find s pat pos = none) :
    ∀ j, pos ≤ j → j ≤ s.length → ¬ pat <+: s.drop j := by
  unfold find at h
  rw [Option.map_eq_none_iff, List.find?_eq_none] at h
  intro j h1 h2
  have := h (j - pos) (List.mem_range.2 (by omega))
  simp only [decide_eq_true_eq] at this
  rwa [show pos + (j - pos) = j by omega] at this

end Verif.Str
