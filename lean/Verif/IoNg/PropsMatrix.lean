import Verif.IoNg.ModelMatrix
import Verif.IoNg.PropsComposite
import Verif.Crs.Props

/-!
# C100: matrices in files
-/

namespace Verif.IoNg

open Verif.Dense

variable {α T : Type} [DecidableEq α]

/-! ## Fields of an object -/

/-- The fields of an object are written one after the other. -/
def writeFields (m : Mode) (name : Str) : List (Str × Leaf α) → File α → Out (File α)
  | [], f => .ok f
  | (w, v) :: r, f => do
    let f ← v.write f (name ++ '/' :: w) m
    writeFields m name r f

/-- The field `w` of the object `n` can be written. -/
def Ready (m : Mode) (f : File α) (n : Name) (w : Str) (k : LeafKind) : Prop :=
  f ("Def".toList :: (n ++ [w])) ≠ some .group ∧ (m = .no → f ("Def".toList :: (n ++ [w])) = none) ∧
  (f ("Def".toList :: (n ++ [w ++ cor])) = none ∨ f ("Def".toList :: (n ++ [w ++ cor])) = letterNode k)

/-- The field `w` of the object `n` is `v`. -/
def FieldAt (f : File α) (n : Name) (w : Str) (v : Leaf α) : Prop :=
  f ("Def".toList :: (n ++ [w])) = some (.data v.data) ∧ f ("Def".toList :: (n ++ [w ++ cor])) = letterNode v.kind

/-- A field that can be written. -/
def FieldOk (m : Mode) (p : Str × Leaf α) : Prop :=
  IsPart p.1 ∧ ¬ cor <:+ p.1 ∧ p.2.Ok ∧ (p.2.kind = .cvec → m = .no) ∧ ¬ (p.2.kind = .text ∧ m = .allow)

theorem append_cor_ne (w : Str) : w ++ cor ≠ w := by
  intro e
  have h : cor.length = 13 := by decide
  have := congrArg List.length e
  rw [List.length_append, h] at this
  omega

theorem field_path (n : Name) (w : Str) : (("Def".toList :: (n ++ [w]) : Path)).dropLast = "Def".toList :: n := dropLast_concat' n w

theorem field_write (m : Mode) (f : File α) (n : Name) (h0 : n ≠ []) (hn : ∀ w ∈ n, IsPart w) (hg : f ("Def".toList :: n) = some .group)
    (w : Str) (v : Leaf α) (hv : FieldOk m (w, v)) (hr : Ready m f n w v.kind) :
    v.write f (n.text ++ '/' :: w) m =
      .ok ((f.set ("Def".toList :: (n ++ [w ++ cor])) (letterNode v.kind)).set ("Def".toList :: (n ++ [w])) (some (.data v.data))) := by
  obtain ⟨hw, hc, hok, h1, h2⟩ := hv
  obtain ⟨r1, r2, r3⟩ := hr
  simp only at hw hc hok h1 h2
  have hp := path_inDef (n ++ [w]) (by simp) (parts_concat hn hw)
  have hpm : h5path (inDef (marker (n ++ [w]).text)) = "Def".toList :: (n ++ [w ++ cor]) := by
    rw [marker_text _ (by simp), path_inDef _ (mark_ne_nil _ (by simp)) (mark_parts _ (parts_concat hn hw)), mark_concat]
    rfl
  have hne : "Def".toList :: (n ++ [w]) ≠ "Def".toList :: (n ++ [w ++ cor]) := by
    intro e
    simp only [List.cons.injEq, List.append_cancel_left_eq, and_true, true_and] at e
    exact append_cor_ne w e.symm
  rw [← text_concat n w h0, leaf_write f _ v m hok h1 h2]
  have hW : writeLetter f (n ++ [w]).text v.kind = f.set ("Def".toList :: (n ++ [w ++ cor])) (letterNode v.kind) := by
    unfold writeLetter letterNode
    cases hl : v.kind.letter with
    | none =>
      show f = f.set _ none
      funext q
      by_cases hq : q = "Def".toList :: (n ++ [w ++ cor])
      · subst hq
        rw [set_same]
        rcases r3 with r3 | r3
        · exact r3
        · rw [r3]; simp [letterNode, hl]
      · rw [set_other _ _ _ _ hq]
    | some c =>
      simp only [writeComplexOrReal, writeScalar, put, internalWrite_eq _ _ _ _ hpm (by simp), field_path, hg, true_and]
      rcases r3 with r3 | r3
      · rw [if_pos r3]; rfl
      · rw [if_neg (by rw [r3]; simp [letterNode, hl])]
        funext q
        by_cases hq : q = "Def".toList :: (n ++ [w ++ cor])
        · subst hq; rw [set_same, r3]; simp [letterNode, hl]
        · rw [set_other _ _ _ _ hq]
  have hnn : ("Def".toList :: n : Path) ≠ "Def".toList :: (n ++ [w ++ cor]) := by
    intro e
    have := congrArg List.length e
    simp at this
  rw [hW, put_eq _ _ _ _ _ hp (by simp) (by rw [set_other _ _ _ _ hne]; exact r1)
    (by intro _; rw [field_path, set_other _ _ _ _ hnn, hg]), if_pos]
  rw [field_path, set_other _ _ _ _ hnn, set_other _ _ _ _ hne]
  refine ⟨hg, ?_⟩
  cases m with
  | no => exact .inr (r2 rfl)
  | allow => exact .inl rfl

theorem field_ne {w w' : Str} (n : Name) (h : ¬ cor <:+ w) (h' : ¬ cor <:+ w') (hw : w ≠ w') :
    ("Def".toList :: (n ++ [w]) : Path) ≠ "Def".toList :: (n ++ [w']) ∧
    ("Def".toList :: (n ++ [w]) : Path) ≠ "Def".toList :: (n ++ [w' ++ cor]) ∧
    ("Def".toList :: (n ++ [w ++ cor]) : Path) ≠ "Def".toList :: (n ++ [w']) ∧
    ("Def".toList :: (n ++ [w ++ cor]) : Path) ≠ "Def".toList :: (n ++ [w' ++ cor]) := by
  simp only [ne_eq, List.cons.injEq, List.append_cancel_left_eq, and_true, true_and]
  refine ⟨hw, ?_, ?_, ?_⟩
  · rintro rfl; exact h (List.suffix_append _ _)
  · rintro rfl; exact h' (List.suffix_append _ _)
  · intro e; exact hw (List.append_cancel_right e)

theorem fields_ok (m : Mode) (n : Name) (h0 : n ≠ []) (hn : ∀ w ∈ n, IsPart w) (fs : List (Str × Leaf α)) (hfs : ∀ p ∈ fs, FieldOk m p)
    (hnd : (fs.map Prod.fst).Nodup) (f : File α) (hg : f ("Def".toList :: n) = some .group)
    (hr : ∀ p ∈ fs, Ready m f n p.1 p.2.kind) :
    ∃ f', writeFields m n.text fs f = .ok f' ∧
      (∀ q, (∀ p ∈ fs, q ≠ "Def".toList :: (n ++ [p.1]) ∧ q ≠ "Def".toList :: (n ++ [p.1 ++ cor])) → f' q = f q) ∧
      ∀ p ∈ fs, FieldAt f' n p.1 p.2 := by
  induction fs generalizing f with
  | nil => exact ⟨f, rfl, fun _ _ => rfl, by simp⟩
  | cons p fs ih =>
    obtain ⟨w, v⟩ := p
    have hv := hfs (w, v) List.mem_cons_self
    have hw := field_write m f n h0 hn hg w v hv (hr (w, v) List.mem_cons_self)
    simp only [List.map_cons, List.nodup_cons] at hnd
    have hne : ∀ p ∈ fs, p.1 ≠ w := fun p hp e => hnd.1 (e ▸ List.mem_map_of_mem hp)
    obtain ⟨f', h1, h2, h3⟩ := ih (fun p hp => hfs p (List.mem_cons_of_mem _ hp)) hnd.2
      ((f.set ("Def".toList :: (n ++ [w ++ cor])) (letterNode v.kind)).set ("Def".toList :: (n ++ [w])) (some (.data v.data)))
      (by
        rw [set_other _ _ _ _ (by intro e; have := congrArg List.length e; simp at this),
          set_other _ _ _ _ (by intro e; have := congrArg List.length e; simp at this), hg])
      (by
        intro p hp
        obtain ⟨a1, a2, a3, a4⟩ := field_ne n (hfs p (List.mem_cons_of_mem _ hp)).2.1 hv.2.1 (hne p hp)
        have := hr p (List.mem_cons_of_mem _ hp)
        unfold Ready
        rw [set_other _ _ _ _ a1, set_other _ _ _ _ a2, set_other _ _ _ _ a3, set_other _ _ _ _ a4]
        exact this)
    refine ⟨f', ?_, ?_, ?_⟩
    · rw [writeFields, hw]; exact h1
    · intro q hq
      rw [h2 q (fun p hp => hq p (List.mem_cons_of_mem _ hp)), set_other _ _ _ _ (hq _ List.mem_cons_self).1,
        set_other _ _ _ _ (hq _ List.mem_cons_self).2]
    · intro p hp
      rcases List.mem_cons.1 hp with rfl | hp
      · have hnn : ("Def".toList :: (n ++ [w ++ cor]) : Path) ≠ "Def".toList :: (n ++ [w]) := by
          intro e
          simp only [List.cons.injEq, List.append_cancel_left_eq, and_true, true_and] at e
          exact append_cor_ne w e
        constructor
        · rw [h2 _ (fun p hp => by
            obtain ⟨a1, a2, a3, a4⟩ := field_ne n hv.2.1 (hfs p (List.mem_cons_of_mem _ hp)).2.1 (hne p hp).symm
            exact ⟨a1, a2⟩), set_same]
        · rw [h2 _ (fun p hp => by
            obtain ⟨a1, a2, a3, a4⟩ := field_ne n hv.2.1 (hfs p (List.mem_cons_of_mem _ hp)).2.1 (hne p hp).symm
            exact ⟨a3, a4⟩), set_other _ _ _ _ hnn, set_same]
      · exact h3 p hp

theorem field_read [Zero α] (h : H5 α) (f : File α) (n : Name) (h0 : n ≠ []) (hn : ∀ w ∈ n, IsPart w) (w : Str) (hw : IsPart w)
    (v : Leaf α) (hv : v.Ok) (hf : FieldAt f n w v) : Leaf.read h f (n.text ++ '/' :: w) v.kind = .ok v := by
  rw [← text_concat n w h0]
  exact leaf_read h f _ (by simp) (parts_concat hn hw) v hv hf.1 (by rw [mark_concat]; exact hf.2)

/-! ## Elements -/

/-- Vectors of elements can be stored; `ok` are the elements that can. -/
structure Elem.Lawful (el : Elem α T) (ok : T → Prop) : Prop where
  kind : ∀ xs, (el.toLeaf xs).kind = el.kind
  fits : ∀ xs, xs ≠ [] → (∀ x ∈ xs, ok x) → (el.toLeaf xs).Ok
  back : ∀ xs, el.ofLeaf (el.toLeaf xs) = some xs
  text : el.kind ≠ .text

theorem mapM_some {S U : Type} (g : S → Option U) (f : U → S) (h : ∀ x, g (f x) = some x) (xs : List U) : (xs.map f).mapM g = some xs := by
  induction xs with
  | nil => rfl
  | cons x xs ih => simp [h, ih]

theorem real_lawful : (realElem α).Lawful (fun _ => True) :=
  ⟨fun _ => rfl, fun xs h _ => ⟨by simpa using h, by
    intro x hx
    obtain ⟨y, -, rfl⟩ := List.mem_map.1 hx
    trivial⟩, fun xs => mapM_some _ (fun x => Num.real x) (fun _ => rfl) xs, by simp [realElem]⟩

theorem complex_lawful : (complexElem α).Lawful (fun _ => True) :=
  ⟨fun _ => rfl, fun xs h _ => h, fun xs => rfl, by simp [complexElem]⟩

theorem int_lawful : (intElem α).Lawful (fun z => -2147483648 ≤ z ∧ z < 2147483648) :=
  ⟨fun _ => rfl, fun xs h h' => ⟨by simpa using h, by
    intro x hx
    obtain ⟨y, hy, rfl⟩ := List.mem_map.1 hx
    exact h' y hy⟩, fun xs => mapM_some _ (fun x => Num.int x) (fun _ => rfl) xs, by simp [intElem]⟩

theorem readDim_ok [Zero α] (h : H5 α) (f : File α) (n : Name) (h0 : n ≠ []) (hn : ∀ w ∈ n, IsPart w) (w : Str) (hw : IsPart w) (k : Nat)
    (hk : k < 2 ^ 64) (hf : FieldAt f n w (.scalar .size (.int k))) : readDim h f n.text w = .ok k := by
  have := scalar_read h f n w h0 hn hw .size .size (.int k) (.int 0) ⟨by omega, by exact_mod_cast hk⟩ hf.1
  unfold readDim
  rw [this]
  rfl

theorem readElems_ok [Zero α] (el : Elem α T) (ok : T → Prop) (hel : el.Lawful ok) (h : H5 α) (f : File α) (n : Name) (h0 : n ≠ [])
    (hn : ∀ w ∈ n, IsPart w) (w : Str) (hw : IsPart w) (xs : List T) (hx : xs ≠ []) (hok : ∀ x ∈ xs, ok x)
    (hf : FieldAt f n w (el.toLeaf xs)) : readElems el h f n.text w = .ok xs := by
  have := field_read h f n h0 hn w hw _ (hel.fits xs hx hok) hf
  rw [hel.kind] at this
  unfold readElems
  rw [this]
  simp only [bind, Except.bind, hel.back]
  rfl

theorem readInts_ok [Zero α] (h : H5 α) (f : File α) (n : Name) (h0 : n ≠ [])
    (hn : ∀ w ∈ n, IsPart w) (w : Str) (hw : IsPart w) (xs : List Nat) (hx : xs ≠ []) (hok : ∀ x ∈ xs, x < 2147483648)
    (hf : FieldAt f n w ((intElem α).toLeaf (xs.map fun (n : Nat) => (n : Int)))) : readInts h f n.text w = .ok xs := by
  unfold readInts
  rw [readElems_ok (intElem α) _ int_lawful h f n h0 hn w hw _ (by simpa using hx) (by
    intro x hx
    obtain ⟨y, hy, rfl⟩ := List.mem_map.1 hx
    have := hok y hy
    omega) hf]
  simp only [bind, Except.bind, pure, Except.pure, List.map_map]
  refine congrArg Except.ok ((List.map_congr_left fun x _ => ?_).trans (List.map_id xs))
  simp

theorem readDim_congr [Zero α] (h : H5 α) (f g : File α) (n : Name) (h0 : n ≠ []) (hn : ∀ w ∈ n, IsPart w) (w : Str) (hw : IsPart w)
    (e : ∀ q, Foot n q → f q = g q) : readDim h f n.text w = readDim h g n.text w := by
  have := read_congr h f g (n ++ [w]) (by simp) (parts_concat hn hw) (e _ (foot_below n w _ (foot_self _) |>.1 |> .inl))
    (e _ (foot_below n w _ (foot_mark _) |>.1 |> .inl)) (.scalar .size)
  rw [text_concat n w h0] at this
  unfold readDim
  simp only [Leaf.read] at this
  cases h1 : readScalar h f (n.text ++ '/' :: w) .size (.int 0) <;> cases h2 : readScalar h g (n.text ++ '/' :: w) .size (.int 0) <;>
    rw [h1, h2] at this <;> cases this <;> rfl

theorem readElems_congr [Zero α] (el : Elem α T) (h : H5 α) (f g : File α) (n : Name) (h0 : n ≠ []) (hn : ∀ w ∈ n, IsPart w) (w : Str)
    (hw : IsPart w) (e : ∀ q, Foot n q → f q = g q) : readElems el h f n.text w = readElems el h g n.text w := by
  have := read_congr h f g (n ++ [w]) (by simp) (parts_concat hn hw) (e _ (foot_below n w _ (foot_self _) |>.1 |> .inl))
    (e _ (foot_below n w _ (foot_mark _) |>.1 |> .inl)) el.kind
  rw [text_concat n w h0] at this
  unfold readElems
  rw [this]

/-! ## Objects -/

/-- The object `n` has fields with these names and kinds, or has room for them. -/
def Slots (f : File α) (n : Name) (ks : List (Str × LeafKind)) : Prop :=
  f ("Def".toList :: n) = some .group ∧ ∀ p ∈ ks, f ("Def".toList :: (n ++ [p.1])) ≠ some .group ∧
    (f ("Def".toList :: (n ++ [p.1 ++ cor])) = none ∨ f ("Def".toList :: (n ++ [p.1 ++ cor])) = letterNode p.2)

/-- Names of fields. -/
def FieldNames (ks : List (Str × LeafKind)) : Prop :=
  (ks.map Prod.fst).Nodup ∧ ∀ p ∈ ks, IsPart p.1 ∧ ¬ cor <:+ p.1

theorem below_foot (n : Name) (w : Str) : Foot n ("Def".toList :: (n ++ [w])) := .inl (foot_below n w _ (foot_self _)).1

/-- Some of the fields of an object are overwritten. -/
theorem fields_over (n : Name) (h0 : n ≠ []) (hn : ∀ w ∈ n, IsPart w) (ks : List (Str × LeafKind)) (hks : FieldNames ks)
    (fs : List (Str × Leaf α)) (hfs : ∀ p ∈ fs, FieldOk .allow p) (hnd : (fs.map Prod.fst).Nodup)
    (hin : ∀ p ∈ fs, (p.1, p.2.kind) ∈ ks) (f : File α) (hs : Slots f n ks) :
    ∃ f', writeFields .allow n.text fs f = .ok f' ∧ (∀ q, ¬ Foot n q → f' q = f q) ∧ Slots f' n ks ∧ ∀ p ∈ fs, FieldAt f' n p.1 p.2 := by
  obtain ⟨f', h1, h2, h3⟩ := fields_ok .allow n h0 hn fs hfs hnd f hs.1 (fun p hp =>
    ⟨(hs.2 _ (hin p hp)).1, by simp, (hs.2 _ (hin p hp)).2⟩)
  refine ⟨f', h1, ?_, ⟨?_, ?_⟩, h3⟩
  · intro q hq
    refine h2 q fun p _ => ⟨?_, ?_⟩
    · rintro rfl; exact hq (below_foot n _)
    · rintro rfl; exact hq (below_foot n _)
  · rw [h2 _ (fun p _ => ⟨by intro e; have := congrArg List.length e; simp at this,
      by intro e; have := congrArg List.length e; simp at this⟩), hs.1]
  · intro p hp
    by_cases hpf : ∃ v, (p.1, v) ∈ fs
    · obtain ⟨v, hv⟩ := hpf
      have hk : v.kind = p.2 := by
        have hm := hin _ hv
        have := List.inj_on_of_nodup_map hks.1 hm hp rfl
        exact congrArg Prod.snd this
      obtain ⟨e1, e2⟩ := h3 _ hv
      simp only at e1 e2
      rw [e1, e2, hk]
      exact ⟨by simp, .inr rfl⟩
    · have : ∀ p' ∈ fs, p.1 ≠ p'.1 := by
        intro p' hp' e
        exact hpf ⟨p'.2, e ▸ hp'⟩
      have ne := fun p' hp' => field_ne n (hks.2 p hp).2 (hfs p' hp').2.1 (this p' hp')
      rw [h2 _ (fun p' hp' => ⟨(ne p' hp').1, (ne p' hp').2.1⟩), h2 _ (fun p' hp' => ⟨(ne p' hp').2.2.1, (ne p' hp').2.2.2⟩)]
      exact hs.2 p hp

/-- A new object is written. -/
theorem fields_new (n : Name) (h0 : n ≠ []) (hn : ∀ w ∈ n, IsPart w) (ks : List (Str × LeafKind)) (hks : FieldNames ks)
    (fs : List (Str × Leaf α)) (hfs : ∀ p ∈ fs, FieldOk .no p) (hnd : (fs.map Prod.fst).Nodup)
    (hin : ∀ p ∈ fs, (p.1, p.2.kind) ∈ ks) (f : File α) (hpar : f ("Def".toList :: n).dropLast = some .group)
    (hfree : ∀ q, Foot n q → f q = none) :
    ∃ f', (createGroup f n.text >>= writeFields .no n.text fs) = .ok f' ∧ (∀ q, ¬ Foot n q → f' q = f q) ∧ Slots f' n ks ∧
      ∀ p ∈ fs, FieldAt f' n p.1 p.2 := by
  have hne : ∀ w : Str, ("Def".toList :: (n ++ [w]) : Path) ≠ "Def".toList :: n := by
    intro w e
    have := congrArg List.length e
    simp at this
  have hz : ∀ w, (f.set ("Def".toList :: n) (some .group)) ("Def".toList :: (n ++ [w])) = none := fun w => by
    rw [set_other _ _ _ _ (hne w)]; exact hfree _ (below_foot n w)
  obtain ⟨f', h1, h2, h3⟩ := fields_ok .no n h0 hn fs hfs hnd (f.set ("Def".toList :: n) (some .group)) (set_same _ _ _) (fun p hp => by
    unfold Ready
    rw [hz, hz]
    exact ⟨by simp, fun _ => rfl, .inl rfl⟩)
  refine ⟨f', ?_, ?_, ⟨?_, ?_⟩, h3⟩
  · rw [createGroup_ok f n h0 hn hpar (hfree _ (foot_self n))]
    exact h1
  · intro q hq
    rw [h2 q fun p _ => ⟨by rintro rfl; exact hq (below_foot n _), by rintro rfl; exact hq (below_foot n _)⟩,
      set_other _ _ _ _ (by rintro rfl; exact hq (foot_self n))]
  · rw [h2 _ (fun p _ => ⟨(hne _).symm, (hne _).symm⟩), set_same]
  · intro p hp
    by_cases hpf : ∃ v, (p.1, v) ∈ fs
    · obtain ⟨v, hv⟩ := hpf
      have hk : v.kind = p.2 := congrArg Prod.snd (List.inj_on_of_nodup_map hks.1 (hin _ hv) hp rfl)
      obtain ⟨e1, e2⟩ := h3 _ hv
      simp only at e1 e2
      rw [e1, e2, hk]
      exact ⟨by simp, .inr rfl⟩
    · have : ∀ p' ∈ fs, p.1 ≠ p'.1 := fun p' hp' e => hpf ⟨p'.2, e ▸ hp'⟩
      have ne := fun p' hp' => field_ne n (hks.2 p hp).2 (hfs p' hp').2.1 (this p' hp')
      rw [h2 _ (fun p' hp' => ⟨(ne p' hp').1, (ne p' hp').2.1⟩), h2 _ (fun p' hp' => ⟨(ne p' hp').2.2.1, (ne p' hp').2.2.2⟩), hz, hz]
      exact ⟨by simp, .inl rfl⟩

/-! ## Dense matrices -/

/-- A matrix that can be stored. -/
def MatOk (ok : T → Prop) (m : Mat T) : Prop :=
  m.data.length = m.nrow * m.ncol ∧ m.nrow < 2 ^ 64 ∧ m.ncol < 2 ^ 64 ∧ ∀ x ∈ m.data, ok x

/-- Matrices in files; reading is into a new object. -/
def matCodec [Zero α] (el : Elem α T) : Codec α (Mat T) := ⟨writeMat el, readMat el ⟨0, 0, []⟩⟩

def matFields (el : Elem α T) (m : Mat T) : List (Str × Leaf α) :=
  ("nrow_".toList, .scalar .size (.int m.nrow)) :: ("ncol_".toList, .scalar .size (.int m.ncol)) ::
    if m.nrow = 0 ∨ m.ncol = 0 then [] else [("data_".toList, el.toLeaf m.data)]

def matSlots (k : LeafKind) : List (Str × LeafKind) :=
  [("nrow_".toList, .scalar .size), ("ncol_".toList, .scalar .size), ("data_".toList, k)]

theorem matSlots_names (k : LeafKind) : FieldNames (matSlots k) := by
  refine ⟨by simp only [matSlots, List.map]; decide, ?_⟩
  intro p hp
  simp only [matSlots, List.mem_cons, List.not_mem_nil, or_false] at hp
  rcases hp with rfl | rfl | rfl
  · exact ⟨⟨by decide, by decide⟩, by decide +kernel⟩
  · exact ⟨⟨by decide, by decide⟩, by decide +kernel⟩
  · exact ⟨⟨by simp only []; decide, by simp only []; decide⟩, by simp only []; decide +kernel⟩

theorem writeMat_eq (el : Elem α T) (f : File α) (name : Str) (m : Mat T) :
    writeMat el f name m = createGroup f name >>= writeFields .no name (matFields el m) := by
  unfold writeMat
  congr 1
  funext f
  by_cases h : m.nrow = 0 ∨ m.ncol = 0
  · simp only [matFields, if_pos h]; rfl
  · simp only [matFields, if_neg h, writeFields]
    exact (bind_pure (Leaf.write (writeDim (writeDim f name "nrow_".toList m.nrow .no) name "ncol_".toList m.ncol .no)
      (name ++ '/' :: "data_".toList) .no (el.toLeaf m.data))).symm

theorem matFields_ok (el : Elem α T) (ok : T → Prop) (hel : el.Lawful ok) (m : Mat T) (hm : MatOk ok m) (mode : Mode)
    (hc : el.kind = .cvec → mode = .no) : (∀ p ∈ matFields el m, FieldOk mode p) ∧ ((matFields el m).map Prod.fst).Nodup ∧
      (∀ p ∈ matFields el m, (p.1, p.2.kind) ∈ matSlots el.kind) := by
  obtain ⟨h1, h2, h3, h4⟩ := hm
  have hN := matSlots_names el.kind
  have hin : ∀ p ∈ matFields el m, (p.1, p.2.kind) ∈ matSlots el.kind := by
    intro p hp
    unfold matFields at hp
    split at hp
    · simp only [List.mem_cons, List.not_mem_nil, or_false] at hp
      rcases hp with rfl | rfl <;> simp [matSlots, Leaf.kind]
    · simp only [List.mem_cons, List.not_mem_nil, or_false] at hp
      rcases hp with rfl | rfl | rfl
      · simp [matSlots, Leaf.kind]
      · simp [matSlots, Leaf.kind]
      · simp [matSlots, hel.kind]
  refine ⟨?_, ?_, hin⟩
  · intro p hp
    have hn := hN.2 _ (hin p hp)
    refine ⟨hn.1, hn.2, ?_⟩
    unfold matFields at hp
    have hdim : ∀ k : Nat, k < 2 ^ 64 → (Leaf.scalar .size (.int k) : Leaf α).Ok := fun k hk => ⟨by omega, by exact_mod_cast hk⟩
    split at hp
    · simp only [List.mem_cons, List.not_mem_nil, or_false] at hp
      rcases hp with rfl | rfl
      · exact ⟨hdim _ h2, by simp [Leaf.kind], by simp [Leaf.kind]⟩
      · exact ⟨hdim _ h3, by simp [Leaf.kind], by simp [Leaf.kind]⟩
    · rename_i h0
      simp only [List.mem_cons, List.not_mem_nil, or_false] at hp
      rcases hp with rfl | rfl | rfl
      · exact ⟨hdim _ h2, by simp [Leaf.kind], by simp [Leaf.kind]⟩
      · exact ⟨hdim _ h3, by simp [Leaf.kind], by simp [Leaf.kind]⟩
      · refine ⟨hel.fits _ ?_ h4, by rw [hel.kind]; exact hc, by rw [hel.kind]; exact fun h => hel.text h.1⟩
        intro e
        rw [e] at h1
        rcases Nat.mul_eq_zero.1 h1.symm with h | h <;> simp [h] at h0
  · unfold matFields
    split
    · simp only [List.map]; decide
    · simp only [List.map]; decide

/-- What is read when the fields are there. -/
theorem mat_read [Zero α] (el : Elem α T) (ok : T → Prop) (hel : el.Lawful ok) (h : H5 α) (f : File α) (n : Name) (h0 : n ≠ [])
    (hn : ∀ w ∈ n, IsPart w) (m old : Mat T) (hm : MatOk ok m) (hf : ∀ p ∈ matFields el m, FieldAt f n p.1 p.2) :
    readMat el old h f n.text = .ok (if m.nrow = 0 ∨ m.ncol = 0 then ⟨m.nrow, m.ncol, old.data⟩ else m) := by
  obtain ⟨h1, h2, h3, h4⟩ := hm
  unfold readMat
  rw [readDim_ok h f n h0 hn "nrow_".toList ⟨by decide, by decide⟩ m.nrow h2 (hf ("nrow_".toList, .scalar .size (.int m.nrow)) (by simp [matFields])),
    readDim_ok h f n h0 hn "ncol_".toList ⟨by decide, by decide⟩ m.ncol h3 (hf ("ncol_".toList, .scalar .size (.int m.ncol)) (by simp [matFields]))]
  simp only [bind, Except.bind, pure, Except.pure]
  by_cases hz : m.nrow = 0 ∨ m.ncol = 0
  · rw [if_pos hz, if_pos hz]
  · rw [if_neg hz, if_neg hz, readElems_ok el ok hel h f n h0 hn "data_".toList ⟨by decide, by decide⟩ m.data (by
      intro e
      rw [e] at h1
      rcases Nat.mul_eq_zero.1 h1.symm with h | h <;> simp [h] at hz) h4 (hf ("data_".toList, el.toLeaf m.data) (by simp [matFields, hz]))]

/-- **C100** A matrix written to a file is read back, whatever else is in the file, and so are vectors, pairs, ... of
matrices. -/
theorem mat_lawful [Zero α] (el : Elem α T) (ok : T → Prop) (hel : el.Lawful ok) : (matCodec el).Lawful (MatOk ok) := by
  refine ⟨?_, ?_⟩
  · intro f n m h0 hn hm hpar hfree
    obtain ⟨k1, k2, k3⟩ := matFields_ok el ok hel m hm .no (fun _ => rfl)
    obtain ⟨f', e1, e2, -, e3⟩ := fields_new n h0 hn _ (matSlots_names el.kind) _ k1 k2 k3 f hpar hfree
    refine ⟨f', (writeMat_eq el f n.text m).trans e1, e2, ?_⟩
    intro h
    refine (mat_read el ok hel h f' n h0 hn m ⟨0, 0, []⟩ hm e3).trans ?_
    split
    · rename_i hz
      have : m.data = [] := by
        rw [← List.length_eq_zero_iff, hm.1]
        rcases hz with hz | hz <;> simp [hz]
      obtain ⟨r, c, d⟩ := m
      simp only at this
      rw [this]
    · rfl
  · intro h f g n h0 hn e
    show readMat el _ h f n.text = readMat el _ h g n.text
    unfold readMat
    rw [readDim_congr h f g n h0 hn _ ⟨by decide, by decide⟩ e, readDim_congr h f g n h0 hn _ ⟨by decide, by decide⟩ e,
      readElems_congr el h f g n h0 hn _ ⟨by decide, by decide⟩ e]

theorem dimWritten_ok (f : File α) (n : Name) (h0 : n ≠ []) (hn : ∀ w ∈ n, IsPart w) (hg : f ("Def".toList :: n) = some .group)
    (w : Str) (hw : IsPart w) (hf : f ("Def".toList :: (n ++ [w])) ≠ some .group) (k : Nat) : dimWritten f n.text w k = true := by
  have hp := path_inDef (n ++ [w]) (by simp) (parts_concat hn hw)
  rw [text_concat n w h0] at hp
  have hd := dropLast_ne ("Def".toList :: (n ++ [w])) (by simp)
  rw [field_path] at hd
  unfold dimWritten
  simp only [File.unlink, File.createDataSet, hp]
  cases hx : f ("Def".toList :: (n ++ [w])) with
  | none => simp only [throwOut, field_path, hx, hg]; rfl
  | some nd =>
    cases nd with
    | group => exact absurd hx hf
    | data d => simp only [field_path, set_same, set_other _ _ _ _ hd, hg]; rfl

theorem dimWritten_new (f : File α) (n : Name) (h0 : n ≠ []) (hn : ∀ w ∈ n, IsPart w) (hg : f ("Def".toList :: n) = none)
    (w : Str) (hw : IsPart w) (hf : f ("Def".toList :: (n ++ [w])) = none) (k : Nat) :
    dimWritten f n.text w k = false ∧ writeDim f n.text w k .allow = f := by
  have hp := path_inDef (n ++ [w]) (by simp) (parts_concat hn hw)
  rw [text_concat n w h0] at hp
  refine ⟨?_, ?_⟩
  · unfold dimWritten
    simp only [File.unlink, File.createDataSet, hp, hf, throwOut, field_path, hg]
    rfl
  · unfold writeDim writeScalar
    rw [put_eq _ _ _ _ _ hp (by simp) (by rw [hf]; simp) (fun h => absurd hf h), if_neg (by rw [field_path, hg]; simp)]

theorem writeMatOver_eq (el : Elem α T) (ok : T → Prop) (hel : el.Lawful ok) (m : Mat T) (hm : MatOk ok m) (hc : el.kind ≠ .cvec)
    (f : File α) (n : Name) (h0 : n ≠ []) (hn : ∀ w ∈ n, IsPart w) (hs : Slots f n (matSlots el.kind)) :
    writeMatOver el f n.text m = writeFields .allow n.text (matFields el m) f := by
  have s1 := hs.2 ("nrow_".toList, .scalar .size) (by simp [matSlots])
  have s2 := hs.2 ("ncol_".toList, .scalar .size) (by simp [matSlots])
  obtain ⟨k1, -, -⟩ := matFields_ok el ok hel m hm .allow (fun h => absurd h hc)
  have hw := field_write .allow f n h0 hn hs.1 "nrow_".toList (.scalar .size (.int m.nrow)) (k1 _ (by simp [matFields]))
    ⟨s1.1, by simp, s1.2⟩
  have hw' : writeDim f n.text "nrow_".toList m.nrow .allow = _ := Except.ok.inj hw
  have hne := field_ne n (matSlots_names el.kind |>.2 ("ncol_".toList, .scalar .size) (by simp [matSlots])).2
    (matSlots_names el.kind |>.2 ("nrow_".toList, .scalar .size) (by simp [matSlots])).2 (by decide)
  have hnn : ∀ w : Str, ("Def".toList :: n : Path) ≠ "Def".toList :: (n ++ [w]) := by
    intro w e
    have := congrArg List.length e
    simp at this
  have d1 := dimWritten_ok f n h0 hn hs.1 "nrow_".toList ⟨by decide, by decide⟩ s1.1 m.nrow
  have d2 := dimWritten_ok (writeDim f n.text "nrow_".toList m.nrow .allow) n h0 hn
    (by rw [hw', set_other _ _ _ _ (hnn _), set_other _ _ _ _ (hnn _)]; exact hs.1) "ncol_".toList ⟨by decide, by decide⟩
    (by rw [hw', set_other _ _ _ _ hne.1, set_other _ _ _ _ hne.2.1]; exact s2.1) m.ncol
  unfold writeMatOver overwriteMat
  simp only [d1, d2, Bool.true_eq_false, if_false]
  by_cases hz : m.nrow = 0 ∨ m.ncol = 0
  · simp only [hz, if_true, matFields]
    rfl
  · simp only [hz, if_false, matFields, writeFields]
    have : ∀ x : Out (File α), ((x >>= fun f => (pure (true, f) : Out (Bool × File α))) >>= fun p => if p.1 = true then pure p.2 else writeMat el p.2 n.text m) =
        (x >>= fun f => Except.ok f) := by
      intro x; cases x <;> rfl
    exact this _

/-- **C100** Overwriting under a name that is free is writing. -/
theorem mat_over_new (el : Elem α T) (m : Mat T) (f : File α) (n : Name) (h0 : n ≠ []) (hn : ∀ w ∈ n, IsPart w)
    (hfree : ∀ q, Foot n q → f q = none) : writeMatOver el f n.text m = writeMat el f n.text m := by
  obtain ⟨e1, e2⟩ := dimWritten_new f n h0 hn (hfree _ (foot_self n)) "nrow_".toList ⟨by decide, by decide⟩
    (hfree _ (below_foot n _)) m.nrow
  unfold writeMatOver overwriteMat
  rw [if_pos e1, e2]
  rfl

/-- **C100** A matrix is written and then overwritten any number of times by matrices of any shape: the last one is read,
and nothing else in the file changes. -/
theorem mat_rewritten [Zero α] (el : Elem α T) (ok : T → Prop) (hel : el.Lawful ok) (hc : el.kind ≠ .cvec) (f : File α) (n : Name)
    (h0 : n ≠ []) (hn : ∀ w ∈ n, IsPart w) (hpar : f ("Def".toList :: n).dropLast = some .group)
    (hfree : ∀ q, Foot n q → f q = none) (m : Mat T) (ms : List (Mat T)) (hm : ∀ x ∈ m :: ms, MatOk ok x) :
    ∃ f', (writeMat el f n.text m >>= fun f => ms.foldlM (fun f x => writeMatOver el f n.text x) f) = .ok f' ∧
      (∀ q, ¬ Foot n q → f' q = f q) ∧
      ∀ h, readMat el ⟨0, 0, []⟩ h f' n.text = .ok ((m :: ms).getLast (by simp)) := by
  have key : ∀ (ms : List (Mat T)) (m : Mat T) (g : File α), (∀ x ∈ m :: ms, MatOk ok x) → (∀ q, ¬ Foot n q → g q = f q) →
      Slots g n (matSlots el.kind) → (∀ p ∈ matFields el m, FieldAt g n p.1 p.2) →
      ∃ f', ms.foldlM (fun f x => writeMatOver el f n.text x) g = .ok f' ∧ (∀ q, ¬ Foot n q → f' q = f q) ∧
        ∀ p ∈ matFields el ((m :: ms).getLast (by simp)), FieldAt f' n p.1 p.2 := by
    intro ms
    induction ms with
    | nil => intro m g _ hg _ hf; exact ⟨g, rfl, hg, hf⟩
    | cons x xs ih =>
      intro m g hm hg hs hf
      have hx := hm x (by simp)
      obtain ⟨k1, k2, k3⟩ := matFields_ok el ok hel x hx .allow (fun h => absurd h hc)
      obtain ⟨g', e1, e2, e3, e4⟩ := fields_over n h0 hn _ (matSlots_names el.kind) _ k1 k2 k3 g hs
      obtain ⟨f', i1, i2, i3⟩ := ih x g' (fun y hy => hm y (by simp at hy ⊢; tauto)) (fun q hq => (e2 q hq).trans (hg q hq)) e3 e4
      refine ⟨f', ?_, i2, ?_⟩
      · rw [List.foldlM_cons, writeMatOver_eq el ok hel x hx hc g n h0 hn hs, e1]
        exact i1
      · rw [List.getLast_cons (by simp)]
        exact i3
  obtain ⟨k1, k2, k3⟩ := matFields_ok el ok hel m (hm m (by simp)) .no (fun _ => rfl)
  obtain ⟨g, e1, e2, e3, e4⟩ := fields_new n h0 hn _ (matSlots_names el.kind) _ k1 k2 k3 f hpar hfree
  obtain ⟨f', i1, i2, i3⟩ := key ms m g hm e2 e3 e4
  refine ⟨f', ?_, i2, ?_⟩
  · rw [writeMat_eq, e1]; exact i1
  · intro h
    have hl := hm _ (List.getLast_mem (l := m :: ms) (by simp))
    rw [mat_read el ok hel h f' n h0 hn _ ⟨0, 0, []⟩ hl i3]
    generalize (m :: ms).getLast (by simp) = y at hl
    split
    · rename_i hz
      have : y.data = [] := by
        rw [← List.length_eq_zero_iff, hl.1]
        rcases hz with hz | hz <;> simp [hz]
      obtain ⟨r, c, d⟩ := y
      simp only at this
      rw [this]
    · rfl

/-! ## Sparse matrices -/

/-- A sparse matrix that can be stored: it is valid and its indices fit into an `int`; or it is the object a program
begins with. -/
def CrsOk (ok : T → Prop) (m : Crs.Crs T) : Prop :=
  m = ⟨[], [], [], 0, 0⟩ ∨
  (Crs.Valid m ∧ 0 < m.nrow ∧ 0 < m.ncol ∧ m.nrow < 2 ^ 64 ∧ m.ncol < 2 ^ 64 ∧ (∀ p ∈ m.rowptr, p < 2147483648) ∧
    (∀ j ∈ m.colind, j < 2147483648) ∧ ∀ x ∈ m.values, ok x)

/-- Sparse matrices in files; reading is into a new object. -/
def crsCodec [Zero α] (el : Elem α T) : Codec α (Crs.Crs T) :=
  ⟨fun f n m => writeCrs el f n m .no, readCrs el ⟨[], [], [], 0, 0⟩⟩

def crsFields (el : Elem α T) (m : Crs.Crs T) : List (Str × Leaf α) :=
  ("nrow_".toList, .scalar .size (.int m.nrow)) :: ("ncol_".toList, .scalar .size (.int m.ncol)) ::
    if m.nrow = 0 ∨ m.ncol = 0 then [] else
      ("rowptr_".toList, (intElem α).toLeaf (m.rowptr.map fun (n : Nat) => (n : Int))) ::
      if m.rowptr.getD m.nrow 0 = 0 then [] else
        [("colind_".toList, (intElem α).toLeaf (m.colind.map fun (n : Nat) => (n : Int))), ("values_".toList, el.toLeaf m.values)]

def crsSlots (k : LeafKind) : List (Str × LeafKind) :=
  [("nrow_".toList, .scalar .size), ("ncol_".toList, .scalar .size), ("rowptr_".toList, .vec .int),
   ("colind_".toList, .vec .int), ("values_".toList, k)]

theorem crsSlots_names (k : LeafKind) : FieldNames (crsSlots k) := by
  refine ⟨by simp only [crsSlots, List.map]; decide, ?_⟩
  intro p hp
  simp only [crsSlots, List.mem_cons, List.not_mem_nil, or_false] at hp
  rcases hp with rfl | rfl | rfl | rfl | rfl
  · exact ⟨⟨by decide, by decide⟩, by decide +kernel⟩
  · exact ⟨⟨by decide, by decide⟩, by decide +kernel⟩
  · exact ⟨⟨by decide, by decide⟩, by decide +kernel⟩
  · exact ⟨⟨by decide, by decide⟩, by decide +kernel⟩
  · exact ⟨⟨by simp only []; decide, by simp only []; decide⟩, by simp only []; decide +kernel⟩

theorem writeFields_dims (mode : Mode) (name w w' : Str) (k k' : Nat) (r : List (Str × Leaf α)) (f : File α) :
    writeFields mode name ((w, .scalar .size (.int k)) :: (w', .scalar .size (.int k')) :: r) f =
      writeFields mode name r (writeDim (writeDim f name w k mode) name w' k' mode) := rfl

theorem writeFields_ints (mode : Mode) (name w : Str) (xs : List Nat) (r : List (Str × Leaf α)) (f : File α) :
    writeFields mode name ((w, (intElem α).toLeaf (xs.map fun (n : Nat) => (n : Int))) :: r) f =
      (writeInts f name w xs mode >>= writeFields mode name r) := rfl

theorem writeFields_last (mode : Mode) (name w : Str) (v : Leaf α) (f : File α) :
    writeFields mode name [(w, v)] f = v.write f (name ++ '/' :: w) mode := by
  show (v.write f (name ++ '/' :: w) mode >>= fun f => Except.ok f) = _
  cases v.write f (name ++ '/' :: w) mode <;> rfl

theorem writeCrs_eq (el : Elem α T) (ok : T → Prop) (f : File α) (name : Str) (m : Crs.Crs T) (hm : CrsOk ok m) (mode : Mode) :
    writeCrs el f name m mode = (openCrs f name mode >>= writeFields mode name (crsFields el m)) := by
  unfold writeCrs
  rcases hm with rfl | ⟨hv, h1, h2, -⟩
  · rw [if_neg (by simp)]
    rfl
  · rw [if_neg (by rw [hv.check h1 h2]; simp)]
    congr 1
    funext f
    have hz : ¬ (m.nrow = 0 ∨ m.ncol = 0) := by omega
    simp only [crsFields, if_neg hz, hv.rowptr_length, ne_eq, not_true_eq_false, if_false]
    rw [writeFields_dims, writeFields_ints]
    congr 1
    funext f
    by_cases hp : m.rowptr.getD m.nrow 0 = 0
    · rw [if_pos hp, if_pos hp]
      rfl
    · rw [if_neg hp, if_neg hp, writeFields_ints]
      congr 1
      funext f
      rw [writeFields_last]

theorem crsFields_ok (el : Elem α T) (ok : T → Prop) (hel : el.Lawful ok) (m : Crs.Crs T) (hm : CrsOk ok m) (mode : Mode)
    (hc : el.kind = .cvec → mode = .no) : (∀ p ∈ crsFields el m, FieldOk mode p) ∧ ((crsFields el m).map Prod.fst).Nodup ∧
      (∀ p ∈ crsFields el m, (p.1, p.2.kind) ∈ crsSlots el.kind) := by
  have hN := crsSlots_names el.kind
  have hin : ∀ p ∈ crsFields el m, (p.1, p.2.kind) ∈ crsSlots el.kind := by
    intro p hp
    unfold crsFields at hp
    split at hp
    · simp only [List.mem_cons, List.not_mem_nil, or_false] at hp
      rcases hp with rfl | rfl <;> simp [crsSlots, Leaf.kind]
    · split at hp
      · simp only [List.mem_cons, List.not_mem_nil, or_false] at hp
        rcases hp with rfl | rfl | rfl <;> simp [crsSlots, Leaf.kind, intElem]
      · simp only [List.mem_cons, List.not_mem_nil, or_false] at hp
        rcases hp with rfl | rfl | rfl | rfl | rfl
        · simp [crsSlots, Leaf.kind]
        · simp [crsSlots, Leaf.kind]
        · simp [crsSlots, Leaf.kind, intElem]
        · simp [crsSlots, Leaf.kind, intElem]
        · simp [crsSlots, hel.kind]
  have hdim : ∀ k : Nat, k < 2 ^ 64 → (Leaf.scalar .size (.int k) : Leaf α).Ok := fun k hk => ⟨by omega, by exact_mod_cast hk⟩
  have hints : ∀ xs : List Nat, xs ≠ [] → (∀ x ∈ xs, x < 2147483648) → ((intElem α).toLeaf (xs.map fun (n : Nat) => (n : Int))).Ok := by
    intro xs h1 h2
    refine int_lawful.fits _ (by simpa using h1) ?_
    intro x hx
    obtain ⟨y, hy, rfl⟩ := List.mem_map.1 hx
    have := h2 y hy
    omega
  refine ⟨?_, ?_, hin⟩
  · intro p hp
    have hn := hN.2 _ (hin p hp)
    refine ⟨hn.1, hn.2, ?_⟩
    unfold crsFields at hp
    rcases hm with rfl | ⟨hv, h1, h2, h3, h4, h5, h6, h7⟩
    · rw [if_pos (by simp)] at hp
      simp only [List.mem_cons, List.not_mem_nil, or_false] at hp
      rcases hp with rfl | rfl
      · exact ⟨hdim 0 (by norm_num), by simp [Leaf.kind], by simp [Leaf.kind]⟩
      · exact ⟨hdim 0 (by norm_num), by simp [Leaf.kind], by simp [Leaf.kind]⟩
    · rw [if_neg (by omega)] at hp
      have hr : m.rowptr ≠ [] := by
        intro e
        have := hv.rowptr_length
        simp [e] at this
      have c1 : FieldOk mode ("nrow_".toList, (Leaf.scalar .size (.int m.nrow) : Leaf α)) :=
        ⟨(hN.2 ("nrow_".toList, .scalar .size) (by simp [crsSlots])).1, (hN.2 ("nrow_".toList, .scalar .size) (by simp [crsSlots])).2, hdim _ h3, by simp [Leaf.kind], by simp [Leaf.kind]⟩
      split at hp
      · simp only [List.mem_cons, List.not_mem_nil, or_false] at hp
        rcases hp with rfl | rfl | rfl
        · exact ⟨hdim _ h3, by simp [Leaf.kind], by simp [Leaf.kind]⟩
        · exact ⟨hdim _ h4, by simp [Leaf.kind], by simp [Leaf.kind]⟩
        · exact ⟨hints _ hr h5, by simp [Leaf.kind, intElem], by simp [Leaf.kind, intElem]⟩
      · rename_i hz
        have hlen : m.colind.length ≠ 0 := by
          rw [← hv.finish]
          exact hz
        have hcol : m.colind ≠ [] := by
          intro e; simp [e] at hlen
        have hval : m.values ≠ [] := by
          intro e
          have := hv.values_length
          rw [e] at this
          exact hlen this.symm
        simp only [List.mem_cons, List.not_mem_nil, or_false] at hp
        rcases hp with rfl | rfl | rfl | rfl | rfl
        · exact ⟨hdim _ h3, by simp [Leaf.kind], by simp [Leaf.kind]⟩
        · exact ⟨hdim _ h4, by simp [Leaf.kind], by simp [Leaf.kind]⟩
        · exact ⟨hints _ hr h5, by simp [Leaf.kind, intElem], by simp [Leaf.kind, intElem]⟩
        · exact ⟨hints _ hcol h6, by simp [Leaf.kind, intElem], by simp [Leaf.kind, intElem]⟩
        · exact ⟨hel.fits _ hval h7, by rw [hel.kind]; exact hc, by rw [hel.kind]; exact fun h => hel.text h.1⟩
  · unfold crsFields
    split
    · simp only [List.map]; decide
    · split
      · simp only [List.map]; decide
      · simp only [List.map]; decide

/-- What is read when the fields are there. -/
theorem crs_read [Zero α] (el : Elem α T) (ok : T → Prop) (hel : el.Lawful ok) (h : H5 α) (f : File α) (n : Name) (h0 : n ≠ [])
    (hn : ∀ w ∈ n, IsPart w) (m : Crs.Crs T) (hm : CrsOk ok m) (hf : ∀ p ∈ crsFields el m, FieldAt f n p.1 p.2) :
    readCrs el ⟨[], [], [], 0, 0⟩ h f n.text = .ok m := by
  have hdims : m.nrow < 2 ^ 64 ∧ m.ncol < 2 ^ 64 := by
    rcases hm with rfl | ⟨-, -, -, h3, h4, -⟩
    · exact ⟨by norm_num, by norm_num⟩
    · exact ⟨h3, h4⟩
  unfold readCrs
  rw [readDim_ok h f n h0 hn "nrow_".toList ⟨by decide, by decide⟩ m.nrow hdims.1 (hf ("nrow_".toList, .scalar .size (.int m.nrow)) List.mem_cons_self),
    readDim_ok h f n h0 hn "ncol_".toList ⟨by decide, by decide⟩ m.ncol hdims.2 (hf ("ncol_".toList, .scalar .size (.int m.ncol))
      (List.mem_cons_of_mem _ List.mem_cons_self))]
  simp only [bind, Except.bind, pure, Except.pure]
  rcases hm with rfl | ⟨hv, h1, h2, h3, h4, h5, h6, h7⟩
  · rfl
  · have hz : ¬ (m.nrow = 0 ∨ m.ncol = 0) := by omega
    have hr : m.rowptr ≠ [] := by
      intro e
      have := hv.rowptr_length
      simp [e] at this
    rw [if_neg hz, readInts_ok h f n h0 hn "rowptr_".toList ⟨by decide, by decide⟩ m.rowptr hr h5 (hf ("rowptr_".toList, (intElem α).toLeaf (m.rowptr.map fun (n : Nat) => (n : Int)))
        (by simp only [crsFields, if_neg hz]; exact List.mem_cons_of_mem _ (List.mem_cons_of_mem _ List.mem_cons_self)))]
    simp only [hv.rowptr_length, ne_eq, not_true_eq_false, if_false]
    by_cases hp : m.rowptr.getD m.nrow 0 = 0
    · rw [if_pos hp]
      have hlen : m.colind.length = 0 := hv.finish.symm.trans hp
      have hvl := hv.values_length
      obtain ⟨p, c, v, a, b⟩ := m
      simp only at hlen hvl
      rw [hlen] at hvl
      rw [List.length_eq_zero_iff.1 hlen, List.length_eq_zero_iff.1 hvl]
    · have hlen : m.colind.length ≠ 0 := by
        rw [← hv.finish]
        exact hp
      have hcol : m.colind ≠ [] := by
        intro e; simp [e] at hlen
      have hval : m.values ≠ [] := by
        intro e
        have := hv.values_length
        rw [e] at this
        exact hlen this.symm
      rw [if_neg hp, readInts_ok h f n h0 hn "colind_".toList ⟨by decide, by decide⟩ m.colind hcol h6
        (hf ("colind_".toList, (intElem α).toLeaf (m.colind.map fun (n : Nat) => (n : Int)))
          (by simp only [crsFields, if_neg hz, if_neg hp]; exact List.mem_cons_of_mem _ (List.mem_cons_of_mem _ (List.mem_cons_of_mem _ List.mem_cons_self))))]
      simp only []
      rw [readElems_ok el ok hel h f n h0 hn "values_".toList ⟨by decide, by decide⟩ m.values hval h7
        (hf ("values_".toList, el.toLeaf m.values)
          (by simp only [crsFields, if_neg hz, if_neg hp]; exact List.mem_cons_of_mem _ (List.mem_cons_of_mem _ (List.mem_cons_of_mem _ (List.mem_cons_of_mem _ List.mem_cons_self)))))]
      simp only []
      rw [if_neg (by rw [hv.check h1 h2]; simp)]

/-- **C100** A sparse matrix written to a file is read back, whatever else is in the file, and so are vectors, pairs, ... of
sparse matrices. -/
theorem crs_lawful [Zero α] (el : Elem α T) (ok : T → Prop) (hel : el.Lawful ok) : (crsCodec el).Lawful (CrsOk ok) := by
  refine ⟨?_, ?_⟩
  · intro f n m h0 hn hm hpar hfree
    obtain ⟨k1, k2, k3⟩ := crsFields_ok el ok hel m hm .no (fun _ => rfl)
    obtain ⟨f', e1, e2, -, e3⟩ := fields_new n h0 hn _ (crsSlots_names el.kind) _ k1 k2 k3 f hpar hfree
    exact ⟨f', (writeCrs_eq el ok f n.text m hm .no).trans e1, e2, fun h => crs_read el ok hel h f' n h0 hn m hm e3⟩
  · intro h f g n h0 hn e
    show readCrs el _ h f n.text = readCrs el _ h g n.text
    unfold readCrs readInts
    rw [readDim_congr h f g n h0 hn _ ⟨by decide, by decide⟩ e, readDim_congr h f g n h0 hn _ ⟨by decide, by decide⟩ e,
      readElems_congr _ h f g n h0 hn _ ⟨by decide, by decide⟩ e, readElems_congr _ h f g n h0 hn "colind_".toList ⟨by decide, by decide⟩ e,
      readElems_congr el h f g n h0 hn "values_".toList ⟨by decide, by decide⟩ e]

/-- **C100** A sparse matrix is written and then overwritten any number of times by matrices of any shape: the last one is
read, and nothing else in the file changes. -/
theorem crs_rewritten [Zero α] (el : Elem α T) (ok : T → Prop) (hel : el.Lawful ok) (hc : el.kind ≠ .cvec) (f : File α) (n : Name)
    (h0 : n ≠ []) (hn : ∀ w ∈ n, IsPart w) (hpar : f ("Def".toList :: n).dropLast = some .group)
    (hfree : ∀ q, Foot n q → f q = none) (m : Crs.Crs T) (ms : List (Crs.Crs T)) (hm : ∀ x ∈ m :: ms, CrsOk ok x) :
    ∃ f', (writeCrs el f n.text m .no >>= fun f => ms.foldlM (fun f x => writeCrs el f n.text x .allow) f) = .ok f' ∧
      (∀ q, ¬ Foot n q → f' q = f q) ∧
      ∀ h, readCrs el ⟨[], [], [], 0, 0⟩ h f' n.text = .ok ((m :: ms).getLast (by simp)) := by
  have key : ∀ (ms : List (Crs.Crs T)) (m : Crs.Crs T) (g : File α), (∀ x ∈ m :: ms, CrsOk ok x) → (∀ q, ¬ Foot n q → g q = f q) →
      Slots g n (crsSlots el.kind) → (∀ p ∈ crsFields el m, FieldAt g n p.1 p.2) →
      ∃ f', ms.foldlM (fun f x => writeCrs el f n.text x .allow) g = .ok f' ∧ (∀ q, ¬ Foot n q → f' q = f q) ∧
        ∀ p ∈ crsFields el ((m :: ms).getLast (by simp)), FieldAt f' n p.1 p.2 := by
    intro ms
    induction ms with
    | nil => intro m g _ hg _ hf; exact ⟨g, rfl, hg, hf⟩
    | cons x xs ih =>
      intro m g hm hg hs hf
      have hx := hm x (by simp)
      obtain ⟨k1, k2, k3⟩ := crsFields_ok el ok hel x hx .allow (fun h => absurd h hc)
      obtain ⟨g', e1, e2, e3, e4⟩ := fields_over n h0 hn _ (crsSlots_names el.kind) _ k1 k2 k3 g hs
      obtain ⟨f', i1, i2, i3⟩ := ih x g' (fun y hy => hm y (by simp at hy ⊢; tauto)) (fun q hq => (e2 q hq).trans (hg q hq)) e3 e4
      refine ⟨f', ?_, i2, ?_⟩
      · rw [List.foldlM_cons, writeCrs_eq el ok g n.text x hx .allow]
        show (writeFields .allow n.text (crsFields el x) g >>= _) = _
        rw [e1]
        exact i1
      · rw [List.getLast_cons (by simp)]
        exact i3
  obtain ⟨k1, k2, k3⟩ := crsFields_ok el ok hel m (hm m (by simp)) .no (fun _ => rfl)
  obtain ⟨g, e1, e2, e3, e4⟩ := fields_new n h0 hn _ (crsSlots_names el.kind) _ k1 k2 k3 f hpar hfree
  obtain ⟨f', i1, i2, i3⟩ := key ms m g hm e2 e3 e4
  refine ⟨f', ?_, i2, ?_⟩
  · rw [writeCrs_eq el ok f n.text m (hm m (by simp)) .no]
    show (((createGroup f n.text >>= writeFields .no n.text (crsFields el m))) >>= _) = _
    rw [e1]; exact i1
  · intro h
    exact crs_read el ok hel h f' n h0 hn _ (hm _ (List.getLast_mem (l := m :: ms) (by simp))) i3

/-! ## Examples and failures -/

/-- A new file. -/
def newFile : File Int := fun p => if p = [] ∨ p = ["Def".toList] then some .group else none

example : (crsCodec (realElem Int)).Lawful (CrsOk fun _ => True) := crs_lawful _ _ real_lawful

example : MatOk (fun _ => True) (⟨2, 3, [1, 2, 3, 4, 5, 6]⟩ : Mat Int) ∧
    CrsOk (fun _ => True) (⟨[0, 1, 1, 3], [1, 0, 2], [5, 6, 7], 3, 3⟩ : Crs.Crs Int) := by
  refine ⟨⟨rfl, by norm_num, by norm_num, fun _ _ => trivial⟩, .inr ⟨?_, by norm_num, by norm_num, by norm_num, by norm_num,
    by decide, by decide, fun _ _ => trivial⟩⟩
  exact ⟨⟨rfl, rfl, rfl, rfl, by decide, by decide⟩, by decide⟩

example : ((do
    let f ← writeMat (realElem Int) newFile "A".toList ⟨2, 2, [1, 2, 3, 4]⟩
    let f ← writeCrs (realElem Int) f "B".toList ⟨[0, 1, 1, 3], [1, 0, 2], [5, 6, 7], 3, 3⟩ .no
    let f ← writeMatOver (realElem Int) f "A".toList ⟨1, 3, [7, 8, 9]⟩
    let a ← readMat (realElem Int) ⟨0, 0, []⟩ h5id f "A".toList
    let b ← readCrs (realElem Int) ⟨[], [], [], 0, 0⟩ h5id f "B".toList
    return (a.nrow, a.data, b.colind, b.values) : Out (Nat × List Int × List Nat × List Int))) =
      .ok (1, [7, 8, 9], [1, 0, 2], [5, 6, 7]) := by decide +kernel

/-- **C100** What does not hold. An empty matrix read into an object that is not new leaves the old elements there; so does
a sparse matrix without elements. -/
theorem read_old_fails :
    ((do
      let f ← writeMat (realElem Int) newFile "A".toList ⟨0, 2, []⟩
      let a ← readMat (realElem Int) ⟨1, 2, [3, 4]⟩ h5id f "A".toList
      return (a.nrow, a.ncol, a.data) : Out (Nat × Nat × List Int))) = .ok (0, 2, [3, 4]) ∧
    ((do
      let f ← writeCrs (realElem Int) newFile "A".toList ⟨[0, 0], [], [], 1, 1⟩ .no
      let a ← readCrs (realElem Int) ⟨[0, 1], [0], [7], 1, 1⟩ h5id f "A".toList
      return (a.rowptr, a.colind, a.values) : Out (List Nat × List Nat × List Int))) = .ok ([0, 0], [0], [7]) := by decide +kernel

/-- **C100** A complex matrix that is overwritten has the new shape and the old elements. -/
theorem complex_over_fails :
    ((do
      let f ← writeMat (complexElem Int) newFile "A".toList ⟨1, 1, [(1, 2)]⟩
      let f ← writeMatOver (complexElem Int) f "A".toList ⟨1, 2, [(3, 4), (5, 6)]⟩
      let a ← readMat (complexElem Int) ⟨0, 0, []⟩ h5id f "A".toList
      return (a.nrow, a.ncol, a.data) : Out (Nat × Nat × List (Int × Int)))) = .ok (1, 2, [(1, 2)]) := by decide +kernel

/-- **C100** A sparse matrix "overwritten" under a name that is free: the call returns, nothing is stored. -/
theorem crs_over_new_fails :
    ((do
      let f ← writeCrs (realElem Int) newFile "A".toList ⟨[0, 1], [0], [7], 1, 1⟩ .allow
      return (f ["Def".toList, "A".toList]).isNone : Out Bool)) = .ok true ∧
    ((do
      let f ← writeCrs (realElem Int) newFile "A".toList ⟨[0, 1], [0], [7], 1, 1⟩ .allow
      let a ← readCrs (realElem Int) ⟨[], [], [], 0, 0⟩ h5id f "A".toList
      return (a.rowptr, a.colind, a.values) : Out (List Nat × List Nat × List Int))) = throwOut := by decide +kernel

end Verif.IoNg
