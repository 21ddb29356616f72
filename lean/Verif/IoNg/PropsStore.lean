import Verif.IoNg.PropsBool
import Verif.IoNg.Spec

/-!
# C51: values stored under names
-/

namespace Verif.IoNg

open Verif.Str

/-! ## Names and paths -/

theorem text_cons (w : Str) (n : Name) (h : n ≠ []) : Name.text (w :: n) = w ++ '/' :: Name.text n := by
  cases n with
  | nil => exact absurd rfl h
  | cons v r => rfl

theorem h5path_text (n : Name) (h : ∀ w ∈ n, IsPart w) : h5path n.text = n := by
  induction n with
  | nil => rfl
  | cons w n ih =>
    obtain ⟨h1, h2⟩ := h w (by simp)
    have hw : ∀ c ∈ w, decide (c = '/') = false := by
      intro c hc
      simp only [decide_eq_false_iff_not]
      rintro rfl; exact h2 hc
    by_cases hn : n = []
    · subst hn
      exact pieces_token _ w h1 hw
    · rw [text_cons w n hn]
      unfold h5path
      rw [pieces_token_delim _ w h1 hw '/' (by decide), pieces_delim _ '/' _ (by decide)]
      exact congrArg _ (ih (fun v hv => h v (by simp [hv])))

theorem isPart_def : IsPart "Def".toList := by
  refine ⟨by decide, by decide⟩

theorem path_inDef (n : Name) (h0 : n ≠ []) (h : ∀ w ∈ n, IsPart w) :
    h5path (inDef n.text) = "Def".toList :: n := by
  have : inDef n.text = Name.text ("Def".toList :: n) := by
    rw [text_cons _ n h0]; rfl
  rw [this]
  apply h5path_text
  intro w hw
  rcases List.mem_cons.1 hw with rfl | hw
  · exact isPart_def
  · exact h w hw

theorem mark_ne_nil (n : Name) (h : n ≠ []) : mark n ≠ [] := by
  match n, h with
  | [w], _ => simp [mark]
  | w :: v :: r, _ => simp [mark]

theorem marker_text (n : Name) (h : n ≠ []) : marker n.text = (mark n).text := by
  induction n with
  | nil => exact absurd rfl h
  | cons w n ih =>
    by_cases hn : n = []
    · subst hn; rfl
    · have hm : mark (w :: n) = w :: mark n := by
        cases n with
        | nil => exact absurd rfl hn
        | cons v r => rfl
      rw [text_cons w n hn, hm, text_cons w _ (mark_ne_nil n hn), ← ih hn]
      simp [marker]

theorem mark_parts (n : Name) (h : ∀ w ∈ n, IsPart w) : ∀ w ∈ mark n, IsPart w := by
  induction n with
  | nil => simp [mark]
  | cons w n ih =>
    obtain ⟨h1, h2⟩ := h w (by simp)
    by_cases hn : n = []
    · subst hn
      intro v hv
      simp only [mark, List.mem_singleton] at hv
      subst hv
      refine ⟨by simp, ?_⟩
      rw [List.mem_append]
      rintro (h3 | h3)
      · exact h2 h3
      · revert h3; decide
    · have hm : mark (w :: n) = w :: mark n := by
        cases n with
        | nil => exact absurd rfl hn
        | cons v r => rfl
      rw [hm]
      intro v hv
      rcases List.mem_cons.1 hv with rfl | hv
      · exact h v (by simp)
      · exact ih (fun u hu => h u (by simp [hu])) v hv

theorem mark_concat (n : Name) (w : Str) : mark (n ++ [w]) = n ++ [w ++ "ComplexOrReal".toList] := by
  induction n with
  | nil => rfl
  | cons v n ih =>
    have : mark (v :: (n ++ [w])) = v :: mark (n ++ [w]) := by
      cases h : n ++ [w] with
      | nil => simp at h
      | cons a b => rfl
    rw [List.cons_append, this, ih]; rfl

theorem mark_dropLast (n : Name) : (mark n).dropLast = n.dropLast := by
  rcases List.eq_nil_or_concat n with rfl | ⟨n, w, rfl⟩
  · rfl
  · rw [List.concat_eq_append, mark_concat]; simp

theorem mark_inj (n m : Name) (hn : n ≠ []) (hm : m ≠ []) (h : mark n = mark m) : n = m := by
  rcases List.eq_nil_or_concat n with rfl | ⟨n, w, rfl⟩
  · exact absurd rfl hn
  · rcases List.eq_nil_or_concat m with rfl | ⟨m, v, rfl⟩
    · exact absurd rfl hm
    · simp only [List.concat_eq_append] at h ⊢
      rw [mark_concat, mark_concat] at h
      have h1 := List.append_inj' h rfl
      rw [h1.1]
      have := List.append_cancel_right (List.singleton_inj.1 h1.2)
      rw [this]

theorem mark_not_good (n : Name) (hn : n ≠ []) : ¬ Good (mark n) := by
  rcases List.eq_nil_or_concat n with rfl | ⟨n, w, rfl⟩
  · exact absurd rfl hn
  · rw [List.concat_eq_append, mark_concat]
    intro h
    exact (h.2 (w ++ "ComplexOrReal".toList) (by simp)).2.2 (List.suffix_append _ _)

theorem Good.parts {n : Name} (h : Good n) : ∀ w ∈ n, IsPart w := fun w hw => (h.2 w hw).1

theorem good_dropLast {n : Name} (h : Good n) (h0 : n.dropLast ≠ []) : Good n.dropLast :=
  ⟨h0, fun w hw => h.2 w (List.mem_of_mem_dropLast hw)⟩

variable {α : Type} [DecidableEq α]

/-! ## One data set -/

theorem internalWrite_eq (f : File α) (s : Str) (d : Dataset α) (p : Path) (hp : h5path s = p) (h0 : p ≠ []) :
    internalWrite f s d =
      if f p.dropLast = some .group ∧ f p = none then f.set p (some (.data d)) else f := by
  unfold internalWrite File.createDataSet
  rw [hp]
  by_cases h1 : f p.dropLast = some .group
  · by_cases h2 : f p = none
    · simp [h0, h1, h2]
    · simp [h1, h2, throwOut]
  · simp [h1, throwOut]

theorem set_set (f : File α) (p : Path) (a b : Option (Node α)) : (f.set p a).set p b = f.set p b := by
  funext q
  unfold File.set
  split <;> rfl

theorem set_same (f : File α) (p : Path) (a : Option (Node α)) : (f.set p a) p = a := by simp [File.set]

theorem set_other (f : File α) (p q : Path) (a : Option (Node α)) (h : q ≠ p) : (f.set p a) q = f q := by
  simp [File.set, h]

theorem dropLast_ne (p : Path) (h : p ≠ []) : p.dropLast ≠ p := by
  intro e
  have := congrArg List.length e
  have h1 : 0 < p.length := List.length_pos_iff.2 h
  rw [List.length_dropLast] at this
  omega

/-- Writing under a name whose parent is a group and that is not a group itself. -/
theorem put_eq (f : File α) (m : Mode) (s : Str) (d : Dataset α) (p : Path) (hp : h5path s = p) (h0 : p ≠ [])
    (hg : f p ≠ some .group) (hpar : f p ≠ none → f p.dropLast = some .group) :
    put f m s d =
      if f p.dropLast = some .group ∧ (m = .allow ∨ f p = none) then f.set p (some (.data d)) else f := by
  cases m with
  | no =>
    simp only [put, internalWrite_eq f s d p hp h0, reduceCtorEq, false_or]
  | allow =>
    simp only [put, overwrite, File.unlink, hp]
    cases hf : f p with
    | none =>
      simp only [throwOut, internalWrite_eq f s d p hp h0, hf]
      simp
    | some nd =>
      cases nd with
      | group => exact absurd hf hg
      | data d0 =>
        have hg1 := hpar (by simp [hf])
        simp only [internalWrite_eq _ s d p hp h0, set_same, set_other f p _ none (dropLast_ne p h0), hg1, and_self,
          if_true, set_set, true_or]

theorem openDataSet_eq (f : File α) (s : Str) (p : Path) (hp : h5path s = p) :
    f.openDataSet s = match f p with | some (.data d) => .ok d | _ => throwOut := by
  unfold File.openDataSet
  rw [hp]
  cases f p with
  | none => rfl
  | some nd => cases nd <;> rfl

/-! ## The data sets of the values -/

/-- The bytes of a vector of `bool`. -/
def boolBytes (v : List Bool) : List (BitVec 8) := (convertFromBoolean v).getD []

/-- The data set of a value. -/
def Leaf.data : Leaf α → Dataset α
  | .scalar ty x => ⟨ty, [x]⟩
  | .text s => ⟨.char, s.map code⟩
  | .bool b => ⟨.uchar, [.int (if b then 1 else 0)]⟩
  | .vec ty xs => ⟨ty, xs⟩
  | .cvec xs => ⟨.real, xs.flatMap fun x => [.real x.1, .real x.2]⟩
  | .bools v => ⟨.uchar, (boolBytes v).map byteNum⟩

/-- The letter that is stored beside it. -/
def LeafKind.letter : LeafKind → Option Char
  | .vec .real => some 'R'
  | .cvec => some 'C'
  | _ => none

/-- The node of the letter. -/
def letterNode (k : LeafKind) : Option (Node α) := k.letter.map fun c => .data ⟨.char, [code c]⟩

/-- The file with the letter written. -/
def writeLetter (f : File α) (name : Str) (k : LeafKind) : File α :=
  match k.letter with
  | none => f
  | some c => writeComplexOrReal f name c

theorem boolBytes_ne (v : List Bool) (h : v.length < 2 ^ 32) : convertFromBoolean v = some (boolBytes v) ∧
    boolBytes v ≠ [] ∧ convertToBoolean (boolBytes v) = some v := by
  obtain ⟨c, h1, h2⟩ := bools_roundtrip v h
  have : boolBytes v = c := by simp [boolBytes, h1]
  rw [this]
  refine ⟨h1, ?_, h2⟩
  rintro rfl
  simp [convertToBoolean] at h2

theorem leaf_write (f : File α) (name : Str) (v : Leaf α) (m : Mode) (hok : v.Ok) (hc : v.kind = .cvec → m = .no)
    (ht : ¬ (v.kind = .text ∧ m = .allow)) :
    v.write f name m = .ok (put (writeLetter f name v.kind) m (inDef name) v.data) := by
  cases v with
  | scalar ty x => rfl
  | text s =>
    have hm : m = .no := by
      cases m with
      | no => rfl
      | allow => exact absurd ⟨rfl, rfl⟩ ht
    subst hm
    rfl
  | bool b => rfl
  | vec ty xs =>
    simp only [Leaf.write, writeVector, if_neg hok.1, Leaf.kind, Leaf.data, writeLetter]
    cases ty <;> rfl
  | cvec xs =>
    have := hc rfl
    subst this
    simp only [Leaf.write, writeComplex, Leaf.kind, Leaf.data, writeLetter]
    rw [if_neg hok]
    rfl
  | bools w =>
    obtain ⟨h1, h2, _⟩ := boolBytes_ne w hok
    simp only [Leaf.write, writeBools, h1, writeVector, Leaf.kind, Leaf.data, writeLetter]
    rw [if_neg (by simpa using h2)]
    rfl

theorem leaf_write_text (f : File α) (name : Str) (v : Leaf α) (ht : v.kind = .text) :
    v.write f name .allow = throwOut := by
  cases v <;> simp [Leaf.kind] at ht
  rfl

theorem fits_char_code (c : Char) (h : c.toNat < 128) : (code c : Num α).Fits .char := by
  simp only [code, Num.Fits]
  omega

theorem onDisk_ok (h : H5 α) (f : File α) (n : Name) (h0 : n ≠ []) (hn : ∀ w ∈ n, IsPart w) (k : LeafKind)
    (hf : f ("Def".toList :: mark n) = letterNode k) :
    onDisk h f n.text = .ok (match k.letter with | none => .other | some c => if c = 'C' then .complex else .floating) := by
  have hp : h5path (inDef (marker n.text)) = "Def".toList :: mark n := by
    rw [marker_text n h0]
    exact path_inDef _ (mark_ne_nil n h0) (mark_parts n hn)
  unfold onDisk readScalar
  rw [openDataSet_eq f _ _ hp, hf]
  have key : ∀ c : Char, c.toNat < 128 → (match (Except.ok (h.cvt .char .char (code c)) : Out (Num α)) with
      | .error .ub => ubOut
      | .error .thrown => .ok Kind.other
      | .ok x => .ok (if x = code 'C' then Kind.complex else .floating)) =
        .ok (if c = 'C' then Kind.complex else .floating) := by
    intro c hc
    simp only [h.cvt_fits _ _ _ (fits_char_code c hc)]
    congr 1
    by_cases hcc : c = 'C'
    · subst hcc; simp
    · rw [if_neg hcc, if_neg]
      intro e
      simp only [code, Num.int.injEq, Int.natCast_inj] at e
      exact hcc (Char.toNat_inj.1 e)
  unfold letterNode
  match k with
  | .scalar ty => rfl
  | .text => rfl
  | .bool => rfl
  | .vec .real => exact key 'R' (by decide)
  | .vec .char => rfl
  | .vec .uchar => rfl
  | .vec .int => rfl
  | .vec .size => rfl
  | .cvec => exact key 'C' (by decide)
  | .bools => rfl

theorem map_cvt (h : H5 α) (s t : Ty) (xs : List (Num α)) (hx : ∀ x ∈ xs, x.Fits t) : xs.map (h.cvt s t) = xs := by
  conv_rhs => rw [← List.map_id xs]
  apply List.map_congr_left
  intro x hxs
  exact h.cvt_fits s t x (hx x hxs)

theorem mapM_unCode (s : Str) : (s.map (code : Char → Num α)).mapM unCode = some s := by
  induction s with
  | nil => rfl
  | cons c s ih =>
    rw [List.map_cons, List.mapM_cons, ih]
    have : unCode (code c : Num α) = some c := by simp [unCode, code]
    rw [this]; rfl

theorem mapM_numByte (s : List (BitVec 8)) : (s.map (byteNum : BitVec 8 → Num α)).mapM numByte = some s := by
  induction s with
  | nil => rfl
  | cons c s ih =>
    rw [List.map_cons, List.mapM_cons, ih]
    have : numByte (byteNum c : Num α) = some c := by simp [numByte, byteNum]
    rw [this]; rfl

theorem toPairs_flat (xs : List (α × α)) : toPairs (xs.flatMap fun x => [Num.real x.1, Num.real x.2]) = some xs := by
  induction xs with
  | nil => rfl
  | cons x xs ih =>
    simp only [List.flatMap_cons, List.cons_append, List.nil_append, toPairs, ih, Option.map_some]

theorem flat_even (xs : List (α × α)) : (xs.flatMap fun x => [Num.real x.1, Num.real x.2]).length % 2 = 0 := by
  induction xs with
  | nil => rfl
  | cons x xs ih =>
    rw [List.flatMap_cons, List.length_append]
    simp only [List.length_cons, List.length_nil]
    omega

theorem readVector_ok (h : H5 α) (f : File α) (n : Name) (h0 : n ≠ []) (hn : ∀ w ∈ n, IsPart w) (ty : Ty)
    (xs : List (Num α)) (h1 : xs ≠ []) (h2 : ∀ x ∈ xs, x.Fits ty) (hd : f ("Def".toList :: n) = some (.data ⟨ty, xs⟩))
    (hm : f ("Def".toList :: mark n) = letterNode (.vec ty)) : readVector h f n.text ty = .ok xs := by
  unfold readVector readInternal
  rw [openDataSet_eq f _ _ (path_inDef n h0 hn), hd]
  simp only [bind, Except.bind]
  rw [if_neg h1, onDisk_ok h f n h0 hn _ hm]
  simp only [pure, Except.pure, map_cvt h ty ty xs h2]
  cases ty <;> rfl

theorem readComplex_ok [Zero α] (h : H5 α) (f : File α) (n : Name) (h0 : n ≠ []) (hn : ∀ w ∈ n, IsPart w)
    (xs : List (α × α)) (l : List (Num α)) (hl : l = xs.flatMap fun x => [Num.real x.1, Num.real x.2]) (h1 : xs ≠ [])
    (hd : f ("Def".toList :: n) = some (.data ⟨.real, l⟩))
    (hm : f ("Def".toList :: mark n) = letterNode .cvec) : readComplex h f n.text = .ok xs := by
  have hne : l ≠ [] := by
    subst hl
    cases xs with
    | nil => exact absurd rfl h1
    | cons x xs => simp
  have heven : ¬ l.length % 2 = 1 := by rw [hl, flat_even]; decide
  have hcvt : l.map (h.cvt .real .real) = l := map_cvt h _ _ _ (by
    intro x hx
    rw [hl] at hx
    obtain ⟨y, _, hy⟩ := List.mem_flatMap.1 hx
    simp only [List.mem_cons, List.not_mem_nil, or_false] at hy
    rcases hy with rfl | rfl <;> trivial)
  unfold readComplex readInternal
  rw [openDataSet_eq f _ _ (path_inDef n h0 hn), hd]
  simp only [bind, Except.bind]
  rw [if_neg hne, onDisk_ok h f n h0 hn _ hm]
  simp only [pure, Except.pure, LeafKind.letter, if_true]
  rw [if_neg heven, hcvt, hl, toPairs_flat]
  rfl

/-- Reading a value whose data set and letter are there. -/
theorem leaf_read [Zero α] (h : H5 α) (f : File α) (n : Name) (h0 : n ≠ []) (hn : ∀ w ∈ n, IsPart w) (v : Leaf α)
    (hok : v.Ok) (hd : f ("Def".toList :: n) = some (.data v.data))
    (hm : f ("Def".toList :: mark n) = letterNode v.kind) : Leaf.read h f n.text v.kind = .ok v := by
  cases v with
  | scalar ty x =>
    simp only [Leaf.read, Leaf.kind, readScalar, openDataSet_eq f _ _ (path_inDef n h0 hn), hd, Leaf.data, bind,
      Except.bind, pure, Except.pure, h.cvt_fits _ _ _ hok]
    rfl
  | text s =>
    simp only [Leaf.read, Leaf.kind, readString]
    rw [readVector_ok h f n h0 hn .char (s.map code) (by simpa using hok.1) (by
      intro x hx
      obtain ⟨c, hc, rfl⟩ := List.mem_map.1 hx
      exact fits_char_code c (hok.2 c hc)) hd hm]
    simp only [bind, Except.bind, mapM_unCode, ofThrow]
    rfl
  | bool b =>
    simp only [Leaf.read, Leaf.kind, readBool, readScalar, openDataSet_eq f _ _ (path_inDef n h0 hn), hd, Leaf.data,
      bind, Except.bind, pure, Except.pure]
    rw [h.cvt_fits]
    · cases b <;> rfl
    · cases b <;> simp [Num.Fits]
  | vec ty xs =>
    simp only [Leaf.read, Leaf.kind]
    rw [readVector_ok h f n h0 hn ty xs hok.1 hok.2 hd hm]
    rfl
  | cvec xs =>
    simp only [Leaf.read, Leaf.kind]
    rw [readComplex_ok h f n h0 hn xs _ rfl hok hd hm]
    rfl
  | bools w =>
    obtain ⟨_, h2, h3⟩ := boolBytes_ne w hok
    simp only [Leaf.read, Leaf.kind, readBools]
    rw [readVector_ok h f n h0 hn .uchar ((boolBytes w).map byteNum) (by simpa using h2) (by
      intro x hx
      obtain ⟨c, _, rfl⟩ := List.mem_map.1 hx
      simp only [byteNum, Num.Fits]
      have := c.isLt
      omega) hd hm]
    simp only [bind, Except.bind, mapM_numByte, ofThrow, h3]
    rfl

/-- Reading a value that is not there. -/
theorem leaf_read_none [Zero α] (h : H5 α) (f : File α) (n : Name) (h0 : n ≠ []) (hn : ∀ w ∈ n, IsPart w) (k : LeafKind)
    (hd : f ("Def".toList :: n) = none) : Leaf.read h f n.text k = throwOut := by
  have ho : f.openDataSet (inDef n.text) = throwOut := by
    rw [openDataSet_eq f _ _ (path_inDef n h0 hn), hd]
  cases k <;> simp only [Leaf.read, readScalar, readString, readBool, readVector, readComplex, readBools, readInternal,
    ho] <;> rfl

/-! ## The invariant -/

/-- The file holds the store. -/
structure Holds (kindOf : Name → Option LeafKind) (f : File α) (s : Store α) : Prop where
  root : f [] = some .group
  def_ : f ["Def".toList] = some .group
  node : ∀ n, Good n → f ("Def".toList :: n) = if n ∈ s.groups then some .group else (s.vals n).map fun v => .data v.data
  letter : ∀ n, Good n → f ("Def".toList :: mark n) = (s.vals n).bind fun v => letterNode v.kind
  groups : ∀ n ∈ s.groups, Good n ∧ kindOf n = none
  vals : ∀ n v, s.vals n = some v → Good n ∧ kindOf n = some v.kind ∧ v.Ok ∧ s.HasParent n

theorem cons_dropLast (a : Str) (n : Name) (h : n ≠ []) : (a :: n).dropLast = a :: n.dropLast := by
  cases n with
  | nil => exact absurd rfl h
  | cons b r => rfl

theorem holds_parent {kindOf : Name → Option LeafKind} {f : File α} {s : Store α} (h : Holds kindOf f s) {n : Name}
    (hn : Good n) : f ("Def".toList :: n).dropLast = some .group ↔ s.HasParent n := by
  rw [cons_dropLast _ n hn.1]
  unfold Store.HasParent
  by_cases h0 : n.dropLast = []
  · rw [h0]
    exact iff_of_true h.def_ (Or.inl rfl)
  · rw [h.node _ (good_dropLast hn h0)]
    by_cases hg : n.dropLast ∈ s.groups
    · simp [hg]
    · simp [hg, h0]

theorem holds_none {kindOf : Name → Option LeafKind} {f : File α} {s : Store α} (h : Holds kindOf f s) {n : Name}
    (hk : kindOf n ≠ none) : n ∉ s.groups := fun hg => hk (h.groups n hg).2

theorem holds_init (kindOf : Name → Option LeafKind) : ∃ f : File α, openTrunc = .ok f ∧ Holds kindOf f Store.init := by
  have hp : h5path (inDef []) = ["Def".toList] := by decide
  refine ⟨File.empty.set ["Def".toList] (some .group), ?_, ?_⟩
  · simp only [openTrunc, createGroup, File.createGroup, hp]
    rw [if_pos ⟨by simp, by simp [File.empty], by simp [File.empty]⟩]
  · refine ⟨by simp [File.set, File.empty], by simp [File.set], ?_, ?_, by simp [Store.init], by simp [Store.init]⟩
    · intro n hn
      have := hn.1
      simp [File.set, File.empty, Store.init, this]
    · intro n hn
      have := mark_ne_nil n hn.1
      simp [File.set, File.empty, Store.init, this]

theorem createGroup_holds (kindOf : Name → Option LeafKind) (f : File α) (s : Store α) (h : Holds kindOf f s) (n : Name)
    (hn : Good n) (hk : kindOf n = none) :
    if s.throws (.group n : Op α) = true then createGroup f n.text = throwOut
    else ∃ f', createGroup f n.text = .ok f' ∧ Holds kindOf f' (s.step (.group n)) := by
  have hp := path_inDef n hn.1 hn.parts
  have hv : s.vals n = none := by
    cases hv : s.vals n with
    | none => rfl
    | some v => have := (h.vals n v hv).2.1; rw [hk] at this; cases this
  have hnode := h.node n hn
  rw [hv] at hnode
  unfold createGroup File.createGroup
  simp only [hp, ne_eq, reduceCtorEq, not_false_eq_true, true_and, holds_parent h hn]
  by_cases hg : n ∈ s.groups
  · rw [if_pos hg] at hnode
    rw [if_pos (by simp [Store.throws, hg]), if_neg (by rw [hnode]; simp)]
  · rw [if_neg hg] at hnode
    by_cases hpar : s.HasParent n
    · rw [if_neg (by simp [Store.throws, hg, hpar]), if_pos ⟨hnode, hpar⟩]
      refine ⟨_, rfl, ?_⟩
      refine ⟨?_, ?_, ?_, ?_, ?_, ?_⟩
      · rw [set_other _ _ _ _ (by simp)]; exact h.root
      · rw [set_other _ _ _ _ (by simpa using hn.1.symm)]; exact h.def_
      · intro k hk'
        simp only [Store.step, List.mem_cons]
        by_cases hkn : k = n
        · subst hkn; simp [set_same]
        · rw [set_other _ _ _ _ (by simpa using hkn), h.node k hk']
          simp [hkn]
      · intro k hk'
        have : mark k ≠ n := by rintro rfl; exact mark_not_good k hk'.1 hn
        rw [set_other _ _ _ _ (by simpa using this), h.letter k hk']
        rfl
      · intro k hk'
        simp only [Store.step, List.mem_cons] at hk'
        rcases hk' with rfl | hk'
        · exact ⟨hn, hk⟩
        · exact h.groups k hk'
      · intro k v hkv
        obtain ⟨h1, h2, h3, h4⟩ := h.vals k v hkv
        refine ⟨h1, h2, h3, ?_⟩
        unfold Store.HasParent at h4 ⊢
        rcases h4 with h4 | h4
        · exact .inl h4
        · exact .inr (by simp [Store.step, h4])
    · rw [if_pos (by simp [Store.throws, hg, hpar]), if_neg (fun e => hpar e.2)]

theorem write_holds (kindOf : Name → Option LeafKind) (f : File α) (s : Store α) (h : Holds kindOf f s) (n : Name)
    (v : Leaf α) (m : Mode) (hop : Op.Ok kindOf (.write n v m)) :
    if s.throws (.write n v m) = true then v.write f n.text m = throwOut
    else ∃ f', v.write f n.text m = .ok f' ∧ Holds kindOf f' (s.step (.write n v m)) := by
  obtain ⟨hn, hk, hok, hc⟩ := hop
  by_cases ht : v.kind = .text ∧ m = .allow
  · rw [if_pos (by simp [Store.throws, ht])]
    obtain ⟨h1, rfl⟩ := ht
    exact leaf_write_text f _ v h1
  · rw [if_neg (by simp only [Store.throws, decide_eq_true_eq]; exact ht), leaf_write f _ v m hok hc ht]
    refine ⟨_, rfl, ?_⟩
    have hp := path_inDef n hn.1 hn.parts
    have hpm : h5path (inDef (marker n.text)) = "Def".toList :: mark n := by
      rw [marker_text n hn.1]
      exact path_inDef _ (mark_ne_nil n hn.1) (mark_parts n hn.parts)
    have hng : n ∉ s.groups := holds_none h (by rw [hk]; simp)
    have hnode := h.node n hn
    rw [if_neg hng] at hnode
    have hlet := h.letter n hn
    have hpar := holds_parent h hn
    have hmark : ("Def".toList :: mark n).dropLast = ("Def".toList :: n).dropLast := by
      rw [cons_dropLast _ _ (mark_ne_nil n hn.1), cons_dropLast _ _ hn.1, mark_dropLast]
    have hmn : mark n ≠ n := by intro e; have h9 := mark_not_good n hn.1; rw [e] at h9; exact h9 hn
    have hpm_ne : ("Def".toList :: n).dropLast ≠ "Def".toList :: mark n := by
      rw [← hmark]; exact dropLast_ne _ (by simp)
    have hkind : ∀ v0, s.vals n = some v0 → v0.kind = v.kind := by
      intro v0 h0
      have := (h.vals n v0 h0).2.1
      rw [hk] at this
      exact (Option.some.inj this).symm
    -- the letter
    have hW : writeLetter f n.text v.kind =
        if s.HasParent n ∧ s.vals n = none ∧ letterNode v.kind ≠ (none : Option (Node α)) then
          f.set ("Def".toList :: mark n) (letterNode v.kind) else f := by
      unfold writeLetter letterNode
      cases hl : v.kind.letter with
      | none => simp
      | some c =>
        simp only [writeComplexOrReal, writeScalar, put, internalWrite_eq _ _ _ _ hpm (by simp), hmark, hpar, hlet]
        cases hv : s.vals n with
        | none => simp
        | some v0 =>
          have : letterNode v0.kind ≠ (none : Option (Node α)) := by
            rw [hkind v0 hv]; simp [letterNode, hl]
          simp [this]
    generalize hf1 : writeLetter f n.text v.kind = f1 at hW ⊢
    have h1p : f1 ("Def".toList :: n) = f ("Def".toList :: n) := by
      rw [hW]; split
      · exact set_other _ _ _ _ (by simpa using hmn.symm)
      · rfl
    have h1par : f1 ("Def".toList :: n).dropLast = f ("Def".toList :: n).dropLast := by
      rw [hW]; split
      · exact set_other _ _ _ _ hpm_ne
      · rfl
    rw [put_eq f1 m _ _ _ hp (by simp) (by rw [h1p, hnode]; cases s.vals n <;> simp) (by
      rw [h1p, h1par, hnode, hpar]
      intro e
      cases hv : s.vals n with
      | none => rw [hv] at e; exact absurd rfl e
      | some v0 => exact (h.vals n v0 hv).2.2.2)]
    rw [h1par, h1p, hnode]
    have hiff : (f ("Def".toList :: n).dropLast = some .group ∧
        (m = .allow ∨ (s.vals n).map (fun v => (Node.data v.data : Node α)) = none)) ↔
        (s.HasParent n ∧ (m = .allow ∨ s.vals n = none)) := by
      rw [hpar]; simp
    simp only [hiff, Store.step]
    by_cases hdo : s.HasParent n ∧ (m = .allow ∨ s.vals n = none)
    · rw [if_pos hdo, if_pos hdo]
      have hother : ∀ q, q ≠ "Def".toList :: n → q ≠ "Def".toList :: mark n →
          (f1.set ("Def".toList :: n) (some (.data v.data))) q = f q := by
        intro q h1 h2
        rw [set_other _ _ _ _ h1, hW]
        split
        · exact set_other _ _ _ _ h2
        · rfl
      refine ⟨?_, ?_, ?_, ?_, h.groups, ?_⟩
      · rw [hother _ (by simp) (by simp)]; exact h.root
      · rw [hother _ (by simpa using hn.1.symm) (by simpa using (mark_ne_nil n hn.1).symm)]; exact h.def_
      · intro k hk'
        by_cases hkn : k = n
        · subst hkn; rw [set_same, if_neg hng]; simp
        · rw [hother _ (by simpa using hkn) (by
            simp only [ne_eq, List.cons.injEq, true_and]
            rintro rfl; exact mark_not_good n hn.1 hk'), h.node k hk']
          simp [hkn]
      · intro k hk'
        by_cases hkn : k = n
        · subst hkn
          rw [set_other _ _ _ _ (by simpa using hmn), hW]
          simp only [if_true, Option.bind_some]
          by_cases hv : s.vals k = none
          · by_cases hl : letterNode v.kind = (none : Option (Node α))
            · rw [if_neg (fun e => e.2.2 hl), hlet, hv, hl]; rfl
            · rw [if_pos ⟨hdo.1, hv, hl⟩, set_same]
          · rw [if_neg (fun e => hv e.2.1), hlet]
            obtain ⟨v0, hv0⟩ := Option.ne_none_iff_exists'.1 hv
            rw [hv0, Option.bind_some, hkind v0 hv0]
        · rw [hother _ (by
            simp only [ne_eq, List.cons.injEq, true_and]
            rintro rfl; exact mark_not_good k hk'.1 hn) (by
            simp only [ne_eq, List.cons.injEq, true_and]
            exact fun e => hkn (mark_inj k n hk'.1 hn.1 e)), h.letter k hk']
          simp [hkn]
      · intro k w hkw
        simp only at hkw
        by_cases hkn : k = n
        · subst hkn
          rw [if_pos rfl] at hkw
          cases hkw
          exact ⟨hn, hk, hok, hdo.1⟩
        · rw [if_neg hkn] at hkw
          exact h.vals k w hkw
    · rw [if_neg hdo, if_neg hdo]
      have : f1 = f := by
        rw [hW, if_neg]
        rintro ⟨a, b, _⟩
        exact hdo ⟨a, .inr b⟩
      rw [this]
      exact h

theorem run_holds (kindOf : Name → Option LeafKind) (ops : List (Op α)) (hops : ∀ op ∈ ops, op.Ok kindOf) (f : File α)
    (s : Store α) (h : Holds kindOf f s) :
    ∃ f', runOps f ops = .ok (f', (s.run ops).2) ∧ Holds kindOf f' (s.run ops).1 := by
  induction ops generalizing f s with
  | nil => exact ⟨f, rfl, h⟩
  | cons op ops ih =>
    have hops' : ∀ op ∈ ops, op.Ok kindOf := fun o ho => hops o (by simp [ho])
    have hstep : if s.throws op = true then op.run f = throwOut
        else ∃ f', op.run f = .ok f' ∧ Holds kindOf f' (s.step op) := by
      cases op with
      | group n =>
        obtain ⟨h1, h2⟩ := hops _ (by simp : Op.group n ∈ Op.group n :: ops)
        exact createGroup_holds kindOf f s h n h1 h2
      | write n v m => exact write_holds kindOf f s h n v m (hops _ (by simp))
    by_cases ht : s.throws op = true
    · rw [if_pos ht] at hstep
      obtain ⟨f', h1, h2⟩ := ih hops' f s h
      refine ⟨f', ?_, ?_⟩
      · simp only [runOps, hstep, throwOut, h1, Store.run, ht, if_true]
        rfl
      · simp only [Store.run, ht, if_true]; exact h2
    · rw [if_neg ht] at hstep
      obtain ⟨f1, h3, h4⟩ := hstep
      obtain ⟨f', h1, h2⟩ := ih hops' f1 _ h4
      refine ⟨f', ?_, ?_⟩
      · simp only [runOps, h3, h1, Store.run, ht]
        rfl
      · simp only [Store.run, ht]; exact h2

/-! ## Properties -/

/-- **C51** After any sequence of calls on a new file, reading a name gives the value that the store (a plain map from
names to values) has for it, and throws if it has none; the calls that throw are those the store says. -/
theorem store_spec [Zero α] (h : H5 α) (kindOf : Name → Option LeafKind) (ops : List (Op α))
    (hops : ∀ op ∈ ops, op.Ok kindOf) :
    ∃ f0 f, openTrunc = .ok f0 ∧ runOps f0 ops = .ok (f, (Store.init.run ops).2) ∧
      ∀ n k, Good n → kindOf n = some k → Leaf.read h f n.text k =
        match (Store.init.run ops).1.vals n with
        | some v => .ok v
        | none => throwOut := by
  obtain ⟨f0, h1, h2⟩ := holds_init (α := α) kindOf
  obtain ⟨f, h3, h4⟩ := run_holds kindOf ops hops f0 _ h2
  refine ⟨f0, f, h1, h3, ?_⟩
  intro n k hn hk
  have hng := holds_none h4 (n := n) (by rw [hk]; simp)
  have hnode := h4.node n hn
  rw [if_neg hng] at hnode
  have hlet := h4.letter n hn
  cases hv : (Store.init.run ops).1.vals n with
  | none =>
    rw [hv] at hnode
    exact leaf_read_none h f n hn.1 hn.parts k hnode
  | some v =>
    rw [hv] at hnode hlet
    obtain ⟨_, h5, h6, _⟩ := h4.vals n v hv
    rw [hk] at h5
    cases h5
    exact leaf_read h f n hn.1 hn.parts v h6 hnode hlet

/-- **C51** Calls on other names do not change the value of a name. -/
theorem other_names (s : Store α) (ops : List (Op α)) (n : Name) (h : ∀ op ∈ ops, ∀ v m, op ≠ .write n v m) :
    (s.run ops).1.vals n = s.vals n := by
  induction ops generalizing s with
  | nil => rfl
  | cons op ops ih =>
    have ih' := fun s => ih s (fun o ho => h o (by simp [ho]))
    by_cases ht : s.throws op = true
    · simp only [Store.run, ht, if_true]; exact ih' s
    · simp only [Store.run, ht]
      show ((s.step op).run ops).1.vals n = _
      rw [ih']
      cases op with
      | group k => rfl
      | write k v m =>
        have hne : n ≠ k := by rintro rfl; exact h _ (by simp) v m rfl
        simp only [Store.step]
        split
        · simp [hne]
        · rfl

/-- **C51** A value written in a group that exists, with permission to overwrite or under a new name, is the value of
the name until it is overwritten. -/
theorem written_value (s : Store α) (n : Name) (v : Leaf α) (m : Mode) (hp : s.HasParent n)
    (hm : m = .allow ∨ s.vals n = none) (ht : ¬ (v.kind = .text ∧ m = .allow)) (ops : List (Op α))
    (h : ∀ op ∈ ops, ∀ v, op ≠ .write n v .allow) : (s.run (.write n v m :: ops)).1.vals n = some v := by
  have h1 : (s.step (.write n v m)).vals n = some v := by
    simp [Store.step, hp, hm]
  have h2 : s.throws (.write n v m) = false := by
    simp only [Store.throws, decide_eq_false_iff_not]; exact ht
  simp only [Store.run, h2]
  show ((s.step (.write n v m)).run ops).1.vals n = _
  generalize s.step (.write n v m) = s at h1
  clear hp hm h2
  induction ops generalizing s with
  | nil => exact h1
  | cons op ops ih =>
    have ih' := fun s hs => ih (fun o ho => h o (by simp [ho])) s hs
    by_cases ht : s.throws op = true
    · simp only [Store.run, ht, if_true]; exact ih' s h1
    · simp only [Store.run, ht]
      refine ih' (s.step op) ?_
      cases op with
      | group k => exact h1
      | write k w m' =>
        simp only [Store.step]
        split
        · rename_i hc
          by_cases hkn : n = k
          · subst hkn
            cases m' with
            | no => rw [h1] at hc; simp at hc
            | allow => exact absurd rfl (h _ (by simp) w)
          · simp [hkn, h1]
        · exact h1

/-! ## Examples and failures -/

/-- Conversion that changes nothing. -/
def h5id : H5 Int := ⟨fun _ _ x => x, fun _ _ _ _ => rfl⟩

/-- Read after a sequence of calls on a new file. -/
def readAfter (ops : List (Op Int)) (n : Name) (k : LeafKind) : Out (Leaf Int) := do
  let f ← openTrunc
  let r ← runOps f ops
  Leaf.read h5id r.1 n.text k

/-- A few calls. -/
def ops1 : List (Op Int) :=
  [.group ["g".toList],
   .write ["g".toList, "a".toList] (.vec .real [.real 1, .real 2]) .no,
   .write ["b".toList] (.scalar .int (.int 7)) .no,
   .write ["g".toList, "a".toList] (.vec .real [.real 3]) .allow,
   .write ["b".toList] (.scalar .int (.int 8)) .no,
   .write ["c".toList] (.cvec [(1, 2), (3, 4)]) .no,
   .write ["d".toList] (.bools [true, false, true]) .no,
   .write ["e".toList] (.text "hello".toList) .no]

/-- What the names are used for. -/
def kinds1 : Name → Option LeafKind := fun n =>
  if n = ["g".toList, "a".toList] then some (.vec .real)
  else if n = ["b".toList] then some (.scalar .int)
  else if n = ["c".toList] then some .cvec
  else if n = ["d".toList] then some .bools
  else if n = ["e".toList] then some .text
  else none

example : ∀ op ∈ ops1, op.Ok kinds1 := by
  have hg : ∀ n ∈ [["g".toList], ["g".toList, "a".toList], ["b".toList], ["c".toList], ["d".toList], ["e".toList]],
      n ≠ [] ∧ ∀ w ∈ n, (w ≠ [] ∧ '/' ∉ w) ∧ w ≠ "Canary".toList ∧ ¬ "ComplexOrReal".toList <:+ w := by decide +kernel
  intro op hop
  simp only [ops1, List.mem_cons, List.not_mem_nil, or_false] at hop
  rcases hop with rfl | rfl | rfl | rfl | rfl | rfl | rfl | rfl
  · exact ⟨hg _ (by simp), by decide +kernel⟩
  · exact ⟨hg _ (by simp), by decide +kernel, ⟨by simp, by simp [Num.Fits]⟩, by decide⟩
  · exact ⟨hg _ (by simp), by decide +kernel, by simp [Leaf.Ok, Num.Fits], by decide⟩
  · exact ⟨hg _ (by simp), by decide +kernel, ⟨by simp, by simp [Num.Fits]⟩, by decide⟩
  · exact ⟨hg _ (by simp), by decide +kernel, by simp [Leaf.Ok, Num.Fits], by decide⟩
  · exact ⟨hg _ (by simp), by decide +kernel, by simp [Leaf.Ok], fun _ => rfl⟩
  · exact ⟨hg _ (by simp), by decide +kernel, by simp [Leaf.Ok], by decide⟩
  · exact ⟨hg _ (by simp), by decide +kernel, ⟨by decide, by decide⟩, by decide⟩

example : readAfter ops1 ["g".toList, "a".toList] (.vec .real) = .ok (.vec .real [.real 3]) ∧
    readAfter ops1 ["b".toList] (.scalar .int) = .ok (.scalar .int (.int 7)) ∧
    readAfter ops1 ["c".toList] .cvec = .ok (.cvec [(1, 2), (3, 4)]) ∧
    readAfter ops1 ["d".toList] .bools = .ok (.bools [true, false, true]) ∧
    readAfter ops1 ["e".toList] .text = .ok (.text "hello".toList) := by decide +kernel

/-- An empty vector is not stored; overwriting with one leaves the old value; an empty string is stored but cannot be
read. -/
theorem empty_vector_fails :
    readAfter [.write ["a".toList] (.vec .int []) .no] ["a".toList] (.vec .int) = throwOut ∧
    readAfter [.write ["a".toList] (.vec .int [.int 1]) .no, .write ["a".toList] (.vec .int []) .allow] ["a".toList]
      (.vec .int) = .ok (.vec .int [.int 1]) ∧
    readAfter [.write ["a".toList] (.text []) .no] ["a".toList] .text = throwOut := by decide +kernel

/-- Overwriting a vector of complex numbers stores the new value elsewhere: the old value is read. -/
theorem overwrite_complex_fails :
    readAfter [.write ["a".toList] (.cvec [(1, 2)]) .no, .write ["a".toList] (.cvec [(3, 4)]) .allow] ["a".toList] .cvec =
      .ok (.cvec [(1, 2)]) := by decide +kernel

/-- A value whose group was not made is lost without an error. -/
theorem no_group_fails :
    (openTrunc.bind fun f => (runOps f [.write ["g".toList, "a".toList] (.scalar .int (.int 7) : Leaf Int) .no]).map (·.2)) =
      .ok [false] ∧
    readAfter [.write ["g".toList, "a".toList] (.scalar .int (.int 7)) .no] ["g".toList, "a".toList] (.scalar .int) =
      throwOut := by decide +kernel

/-- Overwriting a vector of reals by one of integers leaves the letter: the new value cannot be read. -/
theorem change_type_fails :
    readAfter [.write ["a".toList] (.vec .real [.real 1]) .no, .write ["a".toList] (.vec .int [.int 1]) .allow] ["a".toList]
      (.vec .int) = throwOut := by decide +kernel

/-- The name of a value and the letter of another may be the same. -/
theorem letter_name_fails :
    readAfter [.write ["aComplexOrReal".toList] (.scalar .char (.int 67)) .no, .write ["a".toList] (.vec .real [.real 1]) .no]
      ["a".toList] (.vec .real) = throwOut := by decide +kernel

end Verif.IoNg
