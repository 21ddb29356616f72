import Verif.IoNg.ModelOver
import Verif.IoNg.PropsMatrix

/-!
# C105: vectors of objects overwritten in files
-/

namespace Verif.IoNg

open Verif.Dense

variable {α T : Type} [DecidableEq α]

/-- The places of the name are free. -/
def FreeAt (f : File α) (n : Name) : Prop := ∀ q, Foot n q → f q = none

/-- `x` was stored under `n`: nothing but the places of `n` has changed, an object is there (`Held`), and it is `x`. -/
structure Stored (read : H5 α → File α → Str → Out T) (Held : File α → Name → Prop) (f f' : File α) (n : Name) (x : T) : Prop where
  frame : ∀ q, ¬ Foot n q → f' q = f q
  held : Held f' n
  reads : ∀ h, read h f' n.text = .ok x

/-- A class whose objects can be overwritten. `Held f n` says that there is an object under `n`. -/
structure Obj.Lawful (o : Obj α T) (ok : T → Prop) (Held : File α → Name → Prop) : Prop where
  new : ∀ (f : File α) (n : Name) (x : T), n ≠ [] → (∀ w ∈ n, IsPart w) → ok x →
    f ("Def".toList :: n).dropLast = some .group → FreeAt f n → ∃ f', o.write f n.text x = .ok f' ∧ Stored o.read Held f f' n x
  again : ∀ (f : File α) (n : Name) (x : T), n ≠ [] → (∀ w ∈ n, IsPart w) → ok x → Held f n → o.write f n.text x = throwOut
  over_ : ∀ (f : File α) (n : Name) (x : T), n ≠ [] → (∀ w ∈ n, IsPart w) → ok x → Held f n →
    ∃ f', o.over f n.text x = .ok f' ∧ Stored o.read Held f f' n x
  allow_ : ∀ (f : File α) (n : Name) (x : T), n ≠ [] → (∀ w ∈ n, IsPart w) → ok x → Held f n →
    ∃ f', o.allow f n.text x = .ok f' ∧ Stored o.read Held f f' n x
  held_local : ∀ (f g : File α) (n : Name), (∀ q, Foot n q → f q = g q) → Held f n → Held g n
  read_local : ∀ (h : H5 α) (f g : File α) (n : Name), n ≠ [] → (∀ w ∈ n, IsPart w) →
    (∀ q, Foot n q → f q = g q) → o.read h f n.text = o.read h g n.text

/-- `write(…, ALLOW_OVERWRITE)` also stores an object under a name that is free. -/
def Obj.AllowsNew (o : Obj α T) (ok : T → Prop) (Held : File α → Name → Prop) : Prop :=
  ∀ (f : File α) (n : Name) (x : T), n ≠ [] → (∀ w ∈ n, IsPart w) → ok x →
    f ("Def".toList :: n).dropLast = some .group → FreeAt f n → ∃ f', o.allow f n.text x = .ok f' ∧ Stored o.read Held f f' n x

/-- A vector of `k` objects is under `n`: the places of the entries after them are free, or hold objects that were there before. -/
structure HeldList (Held : File α → Name → Prop) (f : File α) (n : Name) (k : Nat) : Prop where
  group : f ("Def".toList :: n) = some .group
  size : f ("Def".toList :: (n ++ ["Size".toList])) = some (.data ⟨.size, [.int k]⟩)
  entry : ∀ i < k, Held f (n ++ [digits i])
  rest : ∀ i, k ≤ i → Held f (n ++ [digits i]) ∨ FreeAt f (n ++ [digits i])

/-! ## The loops -/

theorem each_ok {o : Obj α T} {ok : T → Prop} {Held : File α → Name → Prop} (ho : o.Lawful ok Held)
    (st : File α → Str → T → Out (File α)) (Pre : File α → Name → Prop)
    (hpl : ∀ (f g : File α) (n : Name), (∀ q, Foot n q → f q = g q) → Pre f n → Pre g n)
    (hst : ∀ (f : File α) (n : Name) (x : T), n ≠ [] → (∀ w ∈ n, IsPart w) → ok x → f ("Def".toList :: n).dropLast = some .group →
      Pre f n → ∃ f', st f n.text x = .ok f' ∧ Stored o.read Held f f' n x)
    (n : Name) (h0 : n ≠ []) (hn : ∀ w ∈ n, IsPart w) (xs : List T) (hok : ∀ x ∈ xs, ok x) (i : Nat) (f : File α)
    (hg : f ("Def".toList :: n) = some .group) (hpre : ∀ j, i ≤ j → j < i + xs.length → Pre f (n ++ [digits j])) :
    ∃ f', eachEntry st n.text i xs f = .ok f' ∧
      (∀ q, (∀ j, i ≤ j → j < i + xs.length → ¬ Foot (n ++ [digits j]) q) → f' q = f q) ∧
      ∀ (k : Nat) (x : T), xs[k]? = some x → Held f' (n ++ [digits (i + k)]) ∧ ∀ h, o.read h f' (n.text ++ '/' :: digits (i + k)) = .ok x := by
  induction xs generalizing i f with
  | nil => exact ⟨f, rfl, fun q _ => rfl, by simp⟩
  | cons x xs ih =>
    have hd : ∀ j q, j ≠ i → Foot (n ++ [digits j]) q → ¬ Foot (n ++ [digits i]) q := fun j q hj h1 h2 =>
      foot_disjoint n _ _ (digits_cor j) (digits_cor i) (fun e => hj (digits_inj _ _ e)) q h1 h2
    obtain ⟨f1, e1, e2⟩ := hst f (n ++ [digits i]) x (by simp) (parts_concat hn (digits_part i)) (hok x List.mem_cons_self)
      (by rw [dropLast_concat']; exact hg) (hpre i (le_refl _) (by simp))
    rw [text_concat n _ h0] at e1
    obtain ⟨f', h1, h2, h3⟩ := ih (fun y hy => hok y (List.mem_cons_of_mem _ hy)) (i + 1) f1
      (by rw [e2.frame _ fun hf => (foot_below n _ _ hf).2 rfl]; exact hg)
      (fun j h1 h2 => hpl f f1 _ (fun q hq => (e2.frame q (hd j q (by omega) hq)).symm)
        (hpre j (by omega) (by rw [List.length_cons]; omega)))
    refine ⟨f', ?_, ?_, ?_⟩
    · rw [eachEntry, e1]
      exact h1
    · intro q hq
      rw [h2 q fun j ha hb => hq j (by omega) (by rw [List.length_cons]; omega), e2.frame q (hq i (le_refl _) (by simp))]
    · intro k y hy
      cases k with
      | zero =>
        have : x = y := by simpa using hy
        subst this
        have hsame : ∀ q, Foot (n ++ [digits i]) q → f1 q = f' q := fun q hq =>
          (h2 q fun j ha hb hf => hd j q (by omega) hf hq).symm
        refine ⟨ho.held_local f1 f' _ hsame e2.held, fun h => ?_⟩
        have := ho.read_local h f1 f' _ (by simp) (parts_concat hn (digits_part i)) hsame
        rw [e2.reads h, text_concat n _ h0] at this
        exact this.symm
      | succ k =>
        have := h3 k y (by simpa using hy)
        rw [show i + 1 + k = i + (k + 1) by omega] at this
        exact this

theorem size_read (h : H5 α) (f : File α) (n : Name) (h0 : n ≠ []) (hn : ∀ w ∈ n, IsPart w) (k : Nat) (hk : k < 2 ^ 64)
    (hf : f ("Def".toList :: (n ++ ["Size".toList])) = some (.data ⟨.size, [.int k]⟩)) : readSize h f n.text = .ok k := by
  unfold readSize
  have := scalar_read h f n "Size".toList h0 hn size_part .size .size (.int k) (.int 0) ⟨by omega, by exact_mod_cast hk⟩ hf
  rw [show n.text ++ "/Size".toList = n.text ++ '/' :: "Size".toList from rfl, this]
  rfl

theorem size_foot (n : Name) (i : Nat) : ¬ Foot (n ++ [digits i]) ("Def".toList :: (n ++ ["Size".toList])) := fun h =>
  foot_disjoint n _ _ (digits_cor i) size_cor (digits_size i) _ h (foot_self _)

theorem entry_group (n : Name) (i : Nat) : ¬ Foot (n ++ [digits i]) ("Def".toList :: n) := fun h => (foot_below n _ _ h).2 rfl

/-- The vector is there. -/
theorem list_reads {o : Obj α T} {Held : File α → Name → Prop} {f : File α} {n : Name} (h0 : n ≠ []) (hn : ∀ w ∈ n, IsPart w)
    (xs : List T) (hl : xs.length < 2 ^ 64) (hh : HeldList Held f n xs.length)
    (hr : ∀ (k : Nat) (x : T), xs[k]? = some x → ∀ h, o.read h f (n.text ++ '/' :: digits k) = .ok x) (h : H5 α) :
    readList o.toCodec h f n.text = .ok xs := by
  unfold readList
  rw [size_read h f n h0 hn _ hl hh.size]
  exact mapM_range _ _ fun k x hx => hr k x hx h

/-- **C105** A vector of objects is overwritten by one of any length: that one is read, and nothing else in the file changes. -/
theorem overwriteList_spec {o : Obj α T} {ok : T → Prop} {Held : File α → Name → Prop} (ho : o.Lawful ok Held) (h : H5 α) (f : File α)
    (n : Name) (h0 : n ≠ []) (hn : ∀ w ∈ n, IsPart w) (k : Nat) (hk : k < 2 ^ 64) (hf : HeldList Held f n k) (xs : List T)
    (hok : ∀ x ∈ xs, ok x) (hl : xs.length < 2 ^ 64) :
    ∃ f', overwriteList o h f n.text xs = .ok f' ∧ (∀ q, ¬ Foot n q → f' q = f q) ∧ HeldList Held f' n xs.length ∧
      ∀ h, readList o.toCodec h f' n.text = .ok xs := by
  obtain ⟨g, hgd⟩ : ∃ g, g = f.set ("Def".toList :: (n ++ ["Size".toList])) (some (.data ⟨.size, [.int xs.length]⟩)) := ⟨_, rfl⟩
  have hw : writeScalar f (n.text ++ "/Size".toList) .size (.int xs.length) .allow = g := by
    rw [hgd]
    exact scalar_write f n "Size".toList h0 hn size_part .size (.int xs.length) .allow hf.group (by rw [hf.size]; simp) (.inl rfl)
  have hgo : ∀ q, q ≠ "Def".toList :: (n ++ ["Size".toList]) → g q = f q := fun q hq => by rw [hgd, set_other _ _ _ _ hq]
  have hgs : g ("Def".toList :: (n ++ ["Size".toList])) = some (.data ⟨.size, [.int xs.length]⟩) := by rw [hgd, set_same]
  have hloc : ∀ i q, Foot (n ++ [digits i]) q → f q = g q := fun i q hq =>
    (hgo q (by rintro rfl; exact size_foot n i hq)).symm
  have hgg : g ("Def".toList :: n) = some .group := by
    rw [hgo _ (by intro e; have := congrArg List.length e; simp at this)]; exact hf.group
  have hgH : ∀ i < k, Held g (n ++ [digits i]) := fun i hi => ho.held_local f g _ (hloc i) (hf.entry i hi)
  have hfree_local : ∀ (f g : File α) (m : Name), (∀ q, Foot m q → f q = g q) → FreeAt f m → FreeAt g m :=
    fun f g m he hf q hq => (he q hq).symm.trans (hf q hq)
  obtain ⟨f1, e1, e2, e3⟩ := each_ok ho o.over Held ho.held_local
    (fun f n x h0 hn hx _ hp => ho.over_ f n x h0 hn hx hp) n h0 hn (xs.take (min k xs.length))
    (fun x hx => hok x (List.mem_of_mem_take hx)) 0 g hgg
    (fun j _ hj => hgH j (by rw [List.length_take] at hj; omega))
  simp only [Nat.zero_add, List.length_take] at e2 e3
  have hf1g : f1 ("Def".toList :: n) = some .group := by rw [e2 _ fun j _ _ => entry_group n j]; exact hgg
  have hf1s : f1 ("Def".toList :: (n ++ ["Size".toList])) = some (.data ⟨.size, [.int xs.length]⟩) := by
    rw [e2 _ fun j _ _ => size_foot n j]; exact hgs
  have hd : ∀ i j q, i ≠ j → Foot (n ++ [digits i]) q → ¬ Foot (n ++ [digits j]) q := fun i j q hj h1 h2 =>
    foot_disjoint n _ _ (digits_cor i) (digits_cor j) (fun e => hj (digits_inj _ _ e)) q h1 h2
  have hkeep : ∀ i, min k xs.length ≤ i → ∀ q, Foot (n ++ [digits i]) q → g q = f1 q := fun i hi q hq =>
    (e2 q fun j _ hj => hd i j q (by omega) hq).symm
  unfold overwriteList
  rw [size_read h f n h0 hn k hk hf.size]
  simp only [bind, Except.bind]
  rw [hw, e1]
  simp only []
  by_cases hle : xs.length ≤ k
  · rw [if_pos hle]
    have hm : min k xs.length = xs.length := by omega
    rw [hm] at e2 e3 hkeep
    have hH : HeldList Held f1 n xs.length := by
      refine ⟨hf1g, hf1s, fun i hi => (e3 i xs[i] (by simp)).1, fun i hi => ?_⟩
      rcases Nat.lt_or_ge i k with hik | hik
      · exact .inl (ho.held_local g f1 _ (hkeep i hi) (hgH i hik))
      · rcases hf.rest i hik with hh | hh
        · exact .inl (ho.held_local g f1 _ (hkeep i hi) (ho.held_local f g _ (hloc i) hh))
        · exact .inr (hfree_local g f1 _ (hkeep i hi) (hfree_local f g _ (hloc i) hh))
    refine ⟨f1, rfl, ?_, hH, list_reads h0 hn xs hl hH fun i x hx => (e3 i x (by simpa using hx)).2⟩
    intro q hq
    rw [e2 q fun j _ _ hfj => hq (.inl (foot_below n _ _ hfj).1), hgo q (by rintro rfl; exact hq (below_foot n _))]
  · rw [if_neg hle]
    have hm : min k xs.length = k := by omega
    rw [hm] at e2 e3 hkeep
    rw [hm]
    obtain ⟨f2, d1, d2, d3⟩ := each_ok ho (writeOrOver o) (fun f n => Held f n ∨ FreeAt f n)
      (fun f g n he hp => hp.imp (ho.held_local f g n he) (hfree_local f g n he))
      (fun f n x h0 hn hx hp hpre => by
        unfold writeOrOver
        rcases hpre with hh | hh
        · rw [ho.again f n x h0 hn hx hh]
          exact ho.over_ f n x h0 hn hx hh
        · obtain ⟨f', a1, a2⟩ := ho.new f n x h0 hn hx hp hh
          rw [a1]
          exact ⟨f', rfl, a2⟩) n h0 hn (xs.drop k) (fun x hx => hok x (List.mem_of_mem_drop hx)) k f1 hf1g
      (fun j hj _ => by
        rcases hf.rest j hj with hh | hh
        · exact .inl (ho.held_local g f1 _ (hkeep j hj) (ho.held_local f g _ (hloc j) hh))
        · exact .inr (hfree_local g f1 _ (hkeep j hj) (hfree_local f g _ (hloc j) hh)))
    simp only [List.length_drop, List.getElem?_drop] at d2 d3
    have hlen : k + (xs.length - k) = xs.length := by omega
    rw [hlen] at d2
    have hall : ∀ (i : Nat) (x : T), xs[i]? = some x → Held f2 (n ++ [digits i]) ∧ ∀ h, o.read h f2 (n.text ++ '/' :: digits i) = .ok x := by
      intro i x hx
      rcases Nat.lt_or_ge i k with hik | hik
      · obtain ⟨b1, b2⟩ := e3 i x (by rw [List.getElem?_take_of_lt hik]; exact hx)
        have hsame : ∀ q, Foot (n ++ [digits i]) q → f1 q = f2 q := fun q hq => (d2 q fun j ha _ => hd i j q (by omega) hq).symm
        refine ⟨ho.held_local f1 f2 _ hsame b1, fun h => ?_⟩
        have := ho.read_local h f1 f2 _ (by simp) (parts_concat hn (digits_part i)) hsame
        rw [text_concat n _ h0] at this
        rw [← this]
        exact b2 h
      · obtain ⟨j, rfl⟩ : ∃ j, i = k + j := ⟨i - k, by omega⟩
        exact d3 j x hx
    have hH : HeldList Held f2 n xs.length := by
      refine ⟨?_, ?_, fun i hi => (hall i xs[i] (by simp)).1, fun i hi => ?_⟩
      · rw [d2 _ fun j _ _ => entry_group n j]; exact hf1g
      · rw [d2 _ fun j _ _ => size_foot n j]; exact hf1s
      · have hs2 : ∀ q, Foot (n ++ [digits i]) q → f1 q = f2 q := fun q hq => (d2 q fun j _ hb => hd i j q (by omega) hq).symm
        rcases hf.rest i (by omega) with hh | hh
        · exact .inl (ho.held_local f1 f2 _ hs2 (ho.held_local g f1 _ (hkeep i (by omega)) (ho.held_local f g _ (hloc i) hh)))
        · exact .inr (hfree_local f1 f2 _ hs2 (hfree_local g f1 _ (hkeep i (by omega)) (hfree_local f g _ (hloc i) hh)))
    refine ⟨f2, d1, ?_, hH, list_reads h0 hn xs hl hH fun i x hx => (hall i x hx).2⟩
    intro q hq
    have hnf : ∀ j, ¬ Foot (n ++ [digits j]) q := fun j hfj => hq (.inl (foot_below n _ _ hfj).1)
    rw [d2 q fun j _ _ => hnf j, e2 q fun j _ _ => hnf j, hgo q (by rintro rfl; exact hq (below_foot n _))]

theorem entries_each (c : Codec α T) (name : Str) (i : Nat) (xs : List T) (f : File α) :
    writeEntries c name i xs f = eachEntry c.write name i xs f := by
  induction xs generalizing i f with
  | nil => rfl
  | cons x xs ih => simp only [writeEntries, eachEntry, ih]

/-- A vector of objects is written. -/
theorem writeList_held {o : Obj α T} {ok : T → Prop} {Held : File α → Name → Prop} (ho : o.Lawful ok Held) (f : File α)
    (n : Name) (h0 : n ≠ []) (hn : ∀ w ∈ n, IsPart w) (hpar : f ("Def".toList :: n).dropLast = some .group)
    (hfree : FreeAt f n) (xs : List T) (hok : ∀ x ∈ xs, ok x) (hl : xs.length < 2 ^ 64) :
    ∃ f', writeList o.toCodec f n.text xs = .ok f' ∧ (∀ q, ¬ Foot n q → f' q = f q) ∧ HeldList Held f' n xs.length ∧
      ∀ h, readList o.toCodec h f' n.text = .ok xs := by
  have hne : ∀ w : Str, ("Def".toList :: (n ++ [w]) : Path) ≠ "Def".toList :: n := by
    intro w e
    have := congrArg List.length e
    simp at this
  obtain ⟨f1, hf1⟩ : ∃ f1, f1 = f.set ("Def".toList :: n) (some .group) := ⟨_, rfl⟩
  obtain ⟨g, hgd⟩ : ∃ g, g = f1.set ("Def".toList :: (n ++ ["Size".toList])) (some (.data ⟨.size, [.int xs.length]⟩)) := ⟨_, rfl⟩
  have hf1g : f1 ("Def".toList :: n) = some .group := by rw [hf1, set_same]
  have hf1z : ∀ w, f1 ("Def".toList :: (n ++ [w])) = none := fun w => by
    rw [hf1, set_other _ _ _ _ (hne w)]; exact hfree _ (below_foot n w)
  have hw : writeScalar f1 (n.text ++ "/Size".toList) .size (.int xs.length) .no = g := by
    rw [hgd]
    exact scalar_write f1 n "Size".toList h0 hn size_part .size (.int xs.length) .no hf1g (by rw [hf1z]; simp) (.inr (hf1z _))
  have hgg : g ("Def".toList :: n) = some .group := by rw [hgd, set_other _ _ _ _ (hne _).symm]; exact hf1g
  have hgs : g ("Def".toList :: (n ++ ["Size".toList])) = some (.data ⟨.size, [.int xs.length]⟩) := by rw [hgd, set_same]
  have hgf : ∀ i, FreeAt g (n ++ [digits i]) := by
    intro i q hq
    rw [hgd, set_other _ _ _ _ (by rintro rfl; exact size_foot n i hq), hf1, set_other _ _ _ _ (by rintro rfl; exact entry_group n i hq)]
    exact hfree q (.inl (foot_below n _ _ hq).1)
  obtain ⟨f', e1, e2, e3⟩ := each_ok ho o.write FreeAt (fun f g m he hf q hq => (he q hq).symm.trans (hf q hq))
    (fun f n x h0 hn hx hp hpre => ho.new f n x h0 hn hx hp hpre) n h0 hn xs hok 0 g hgg (fun j _ _ => hgf j)
  simp only [Nat.zero_add] at e2 e3
  have hH : HeldList Held f' n xs.length := by
    refine ⟨?_, ?_, fun i hi => (e3 i xs[i] (by simp)).1, fun i hi => .inr fun q hq => ?_⟩
    · rw [e2 _ fun j _ _ => entry_group n j]; exact hgg
    · rw [e2 _ fun j _ _ => size_foot n j]; exact hgs
    · rw [e2 q fun j _ hj hf => foot_disjoint n _ _ (digits_cor i) (digits_cor j) (fun e => by
        have := digits_inj _ _ e
        omega) q hq hf]
      exact hgf i q hq
  refine ⟨f', ?_, ?_, hH, list_reads h0 hn xs hl hH fun i x hx => (e3 i x hx).2⟩
  · unfold writeList
    rw [createGroup_ok f n h0 hn hpar (hfree _ (foot_self n)), ← hf1]
    simp only [bind, Except.bind]
    rw [hw, entries_each]
    exact e1
  · intro q hq
    rw [e2 q fun j _ _ hfj => hq (.inl (foot_below n _ _ hfj).1), hgd, set_other _ _ _ _ (by rintro rfl; exact hq (below_foot n _)),
      hf1, set_other _ _ _ _ (by rintro rfl; exact hq (foot_self n))]

/-- **C105** `write` with permission to overwrite does the same, if the new vector is not longer than the old one or if the
class stores new objects also with this permission. -/
theorem writeListAllow_spec {o : Obj α T} {ok : T → Prop} {Held : File α → Name → Prop} (ho : o.Lawful ok Held) (f : File α)
    (n : Name) (h0 : n ≠ []) (hn : ∀ w ∈ n, IsPart w) (k : Nat) (hf : HeldList Held f n k) (xs : List T)
    (hok : ∀ x ∈ xs, ok x) (hl : xs.length < 2 ^ 64) (hx : xs.length ≤ k ∨ o.AllowsNew ok Held) :
    ∃ f', writeListAllow o f n.text xs = .ok f' ∧ (∀ q, ¬ Foot n q → f' q = f q) ∧ HeldList Held f' n xs.length ∧
      ∀ h, readList o.toCodec h f' n.text = .ok xs := by
  obtain ⟨g, hgd⟩ : ∃ g, g = f.set ("Def".toList :: (n ++ ["Size".toList])) (some (.data ⟨.size, [.int xs.length]⟩)) := ⟨_, rfl⟩
  have hw : writeScalar f (n.text ++ "/Size".toList) .size (.int xs.length) .allow = g := by
    rw [hgd]
    exact scalar_write f n "Size".toList h0 hn size_part .size (.int xs.length) .allow hf.group (by rw [hf.size]; simp) (.inl rfl)
  have hgo : ∀ q, q ≠ "Def".toList :: (n ++ ["Size".toList]) → g q = f q := fun q hq => by rw [hgd, set_other _ _ _ _ hq]
  have hgs : g ("Def".toList :: (n ++ ["Size".toList])) = some (.data ⟨.size, [.int xs.length]⟩) := by rw [hgd, set_same]
  have hgg : g ("Def".toList :: n) = some .group := by
    rw [hgo _ (by intro e; have := congrArg List.length e; simp at this)]; exact hf.group
  have hfree_local : ∀ (f g : File α) (m : Name), (∀ q, Foot m q → f q = g q) → FreeAt f m → FreeAt g m :=
    fun f g m he hf q hq => (he q hq).symm.trans (hf q hq)
  have hloc : ∀ i q, Foot (n ++ [digits i]) q → f q = g q := fun i q hq =>
    (hgo q (by rintro rfl; exact size_foot n i hq)).symm
  have hgr : ∀ i, (i < k → Held g (n ++ [digits i])) ∧ (Held g (n ++ [digits i]) ∨ FreeAt g (n ++ [digits i])) := by
    intro i
    refine ⟨fun hi => ho.held_local f g _ (hloc i) (hf.entry i hi), ?_⟩
    rcases Nat.lt_or_ge i k with hik | hik
    · exact .inl (ho.held_local f g _ (hloc i) (hf.entry i hik))
    · exact (hf.rest i hik).imp (ho.held_local f g _ (hloc i)) (hfree_local f g _ (hloc i))
  obtain ⟨f', e1, e2, e3⟩ := each_ok ho o.allow (fun f n => Held f n ∨ (FreeAt f n ∧ o.AllowsNew ok Held))
      (fun f g n he hp => hp.imp (ho.held_local f g n he) (fun h => ⟨hfree_local f g n he h.1, h.2⟩))
      (fun f n x h0 hn hx hp hpre => by
        rcases hpre with hh | ⟨hh, ha⟩
        · exact ho.allow_ f n x h0 hn hx hh
        · exact ha f n x h0 hn hx hp hh) n h0 hn xs hok 0 g hgg
      (fun j _ hj => by
        rcases hx with hx | hx
        · exact .inl ((hgr j).1 (by omega))
        · exact (hgr j).2.imp id fun h => ⟨h, hx⟩)
  simp only [Nat.zero_add] at e2 e3
  have hH : HeldList Held f' n xs.length := by
    refine ⟨?_, ?_, fun i hi => (e3 i xs[i] (by simp)).1, fun i hi => ?_⟩
    · rw [e2 _ fun j _ _ => entry_group n j]; exact hgg
    · rw [e2 _ fun j _ _ => size_foot n j]; exact hgs
    · have hs2 : ∀ q, Foot (n ++ [digits i]) q → g q = f' q := fun q hq => (e2 q fun j _ hj hf =>
        foot_disjoint n _ _ (digits_cor i) (digits_cor j) (fun e => by
          have := digits_inj _ _ e
          omega) q hq hf).symm
      exact (hgr i).2.imp (ho.held_local g f' _ hs2) (hfree_local g f' _ hs2)
  refine ⟨f', ?_, ?_, hH, list_reads h0 hn xs hl hH fun i x hx => (e3 i x hx).2⟩
  · unfold writeListAllow
    rw [hw]
    exact e1
  · intro q hq
    rw [e2 q fun j _ _ hfj => hq (.inl (foot_below n _ _ hfj).1), hgo q (by rintro rfl; exact hq (below_foot n _))]

/-- One way of overwriting. -/
inductive Redo (T : Type)
  | over (xs : List T)
  | allow (xs : List T)

/-- The new vector. -/
def Redo.vec : Redo T → List T
  | .over xs => xs
  | .allow xs => xs

/-- The call. -/
def Redo.run (o : Obj α T) (h : H5 α) (name : Str) (f : File α) : Redo T → Out (File α)
  | .over xs => overwriteList o h f name xs
  | .allow xs => writeListAllow o f name xs

/-- **C105** A vector of objects is written and then overwritten any number of times, in either way, by vectors of any lengths:
the last one is read, and nothing else in the file changes. -/
theorem list_rewritten {o : Obj α T} {ok : T → Prop} {Held : File α → Name → Prop} (ho : o.Lawful ok Held)
    (ha : o.AllowsNew ok Held) (h : H5 α) (f : File α) (n : Name) (h0 : n ≠ []) (hn : ∀ w ∈ n, IsPart w)
    (hpar : f ("Def".toList :: n).dropLast = some .group) (hfree : FreeAt f n) (xs : List T) (l : List (Redo T))
    (hok : ∀ ys ∈ xs :: l.map Redo.vec, (∀ x ∈ ys, ok x) ∧ ys.length < 2 ^ 64) :
    ∃ f', (writeList o.toCodec f n.text xs >>= fun f => l.foldlM (Redo.run o h n.text) f) = .ok f' ∧
      (∀ q, ¬ Foot n q → f' q = f q) ∧ ∀ h, readList o.toCodec h f' n.text = .ok ((xs :: l.map Redo.vec).getLast (by simp)) := by
  have key : ∀ (l : List (Redo T)) (xs : List T) (g : File α), (∀ ys ∈ xs :: l.map Redo.vec, (∀ x ∈ ys, ok x) ∧ ys.length < 2 ^ 64) →
      (∀ q, ¬ Foot n q → g q = f q) → HeldList Held g n xs.length → (∀ h, readList o.toCodec h g n.text = .ok xs) →
      ∃ f', l.foldlM (Redo.run o h n.text) g = .ok f' ∧ (∀ q, ¬ Foot n q → f' q = f q) ∧
        ∀ h, readList o.toCodec h f' n.text = .ok ((xs :: l.map Redo.vec).getLast (by simp)) := by
    intro l
    induction l with
    | nil => intro xs g _ hg _ hr; exact ⟨g, rfl, hg, hr⟩
    | cons r l ih =>
      intro xs g hk hg hh _
      have hr := hk r.vec (by simp)
      obtain ⟨g', e1, e2, e3, e4⟩ : ∃ g', r.run o h n.text g = .ok g' ∧ (∀ q, ¬ Foot n q → g' q = g q) ∧
          HeldList Held g' n r.vec.length ∧ ∀ h, readList o.toCodec h g' n.text = .ok r.vec := by
        cases r with
        | over ys => exact overwriteList_spec ho h g n h0 hn _ (hk xs (by simp)).2 hh ys hr.1 hr.2
        | allow ys => exact writeListAllow_spec ho g n h0 hn _ hh ys hr.1 hr.2 (.inr ha)
      obtain ⟨f', i1, i2, i3⟩ := ih r.vec g' (fun ys hys => hk ys (List.mem_cons_of_mem _ hys)) (fun q hq => (e2 q hq).trans (hg q hq)) e3 e4
      refine ⟨f', ?_, i2, ?_⟩
      · rw [List.foldlM_cons, e1]
        exact i1
      · intro h
        rw [i3 h]
        simp [List.getLast_cons]
  obtain ⟨g, e1, e2, e3, e4⟩ := writeList_held ho f n h0 hn hpar hfree xs (hok xs (by simp)).1 (hok xs (by simp)).2
  obtain ⟨f', i1, i2, i3⟩ := key l xs g hok e2 e3 e4
  exact ⟨f', by rw [e1]; exact i1, i2, i3⟩

/-! ## The classes -/

theorem createGroup_again (f : File α) (n : Name) (h0 : n ≠ []) (hn : ∀ w ∈ n, IsPart w) (h : f ("Def".toList :: n) = some .group) :
    createGroup f n.text = throwOut := by
  unfold createGroup File.createGroup
  simp only [path_inDef n h0 hn]
  rw [if_neg]
  rintro ⟨-, h1, -⟩
  rw [h] at h1
  simp at h1

theorem slots_local (ks : List (Str × LeafKind)) (f g : File α) (n : Name) (he : ∀ q, Foot n q → f q = g q) (h : Slots f n ks) :
    Slots g n ks := by
  refine ⟨(he _ (foot_self n)).symm.trans h.1, fun p hp => ?_⟩
  rw [← he _ (below_foot n _), ← he _ (below_foot n _)]
  exact h.2 p hp

theorem mat_reads [Zero α] (el : Elem α T) (ok : T → Prop) (hel : el.Lawful ok) (f : File α) (n : Name) (h0 : n ≠ [])
    (hn : ∀ w ∈ n, IsPart w) (m : Mat T) (hm : MatOk ok m) (hf : ∀ p ∈ matFields el m, FieldAt f n p.1 p.2) (h : H5 α) :
    readMat el ⟨0, 0, []⟩ h f n.text = .ok m := by
  refine (mat_read el ok hel h f n h0 hn m ⟨0, 0, []⟩ hm hf).trans ?_
  split
  · rename_i hz
    have : m.data = [] := by
      rw [← List.length_eq_zero_iff, hm.1]
      rcases hz with hz | hz <;> simp [hz]
    obtain ⟨r, c, d⟩ := m
    simp only at this
    rw [this]
  · rfl

/-- What `overwrite` leaves in the file is what `write` with permission to overwrite does. -/
theorem over_allow (el : Elem α T) (f f' : File α) (name : Str) (m : Mat T)
    (hd1 : dimWritten f name "nrow_".toList m.nrow = true)
    (hd2 : dimWritten (writeDim f name "nrow_".toList m.nrow .allow) name "ncol_".toList m.ncol = true)
    (h : writeMatOver el f name m = .ok f') : (overwriteMat el f name m).map Prod.snd = .ok f' := by
  unfold writeMatOver at h
  unfold overwriteMat at h ⊢
  simp only [hd1, hd2, Bool.true_eq_false, if_false] at h ⊢
  by_cases hz : m.nrow = 0 ∨ m.ncol = 0
  · rw [if_pos hz] at h ⊢
    exact h
  · rw [if_neg hz] at h ⊢
    cases hw : (el.toLeaf m.data).write
        (writeDim (writeDim f name "nrow_".toList m.nrow .allow) name "ncol_".toList m.ncol .allow)
        (name ++ '/' :: "data_".toList) .allow with
    | ok g =>
      rw [hw] at h
      exact h
    | error e =>
      rw [hw] at h
      cases h

theorem dims_written (el : Elem α T) (ok : T → Prop) (hel : el.Lawful ok) (m : Mat T) (hm : MatOk ok m) (hc : el.kind ≠ .cvec)
    (f : File α) (n : Name) (h0 : n ≠ []) (hn : ∀ w ∈ n, IsPart w) (hs : Slots f n (matSlots el.kind)) :
    dimWritten f n.text "nrow_".toList m.nrow = true ∧
    dimWritten (writeDim f n.text "nrow_".toList m.nrow .allow) n.text "ncol_".toList m.ncol = true := by
  have s1 := hs.2 ("nrow_".toList, .scalar .size) (by simp [matSlots])
  have s2 := hs.2 ("ncol_".toList, .scalar .size) (by simp [matSlots])
  obtain ⟨k1, -, -⟩ := matFields_ok el ok hel m hm .allow (fun h => absurd h hc)
  have hw := field_write .allow f n h0 hn hs.1 "nrow_".toList (.scalar .size (.int m.nrow)) (k1 _ (by simp [matFields]))
    ⟨s1.1, by simp, s1.2⟩
  have hw' : writeDim f n.text "nrow_".toList m.nrow .allow = _ := Except.ok.inj hw
  have hne := field_ne n (matSlots_names el.kind |>.2 ("ncol_".toList, .scalar .size) (by simp [matSlots])).2
    (matSlots_names el.kind |>.2 ("nrow_".toList, .scalar .size) (by simp [matSlots])).2 (by decide)
  have hnn : ∀ w : Str, ("Def".toList :: n : Path) ≠ "Def".toList :: (n ++ [w]) := by
    intro w e
    have := congrArg List.length e
    simp at this
  exact ⟨dimWritten_ok f n h0 hn hs.1 "nrow_".toList ⟨by decide, by decide⟩ s1.1 m.nrow,
    dimWritten_ok (writeDim f n.text "nrow_".toList m.nrow .allow) n h0 hn
      (by rw [hw', set_other _ _ _ _ (hnn _), set_other _ _ _ _ (hnn _)]; exact hs.1) "ncol_".toList ⟨by decide, by decide⟩
      (by rw [hw', set_other _ _ _ _ hne.1, set_other _ _ _ _ hne.2.1]; exact s2.1) m.ncol⟩

/-- **C105** Matrices without complex elements. -/
theorem matObj_lawful [Zero α] (el : Elem α T) (ok : T → Prop) (hel : el.Lawful ok) (hc : el.kind ≠ .cvec) :
    (matObj el).Lawful (MatOk ok) (fun f n => Slots f n (matSlots el.kind)) ∧
    (matObj el).AllowsNew (MatOk ok) (fun f n => Slots f n (matSlots el.kind)) := by
  have hnew : ∀ (f : File α) (n : Name) (x : Mat T), n ≠ [] → (∀ w ∈ n, IsPart w) → MatOk ok x →
      f ("Def".toList :: n).dropLast = some .group → FreeAt f n →
      ∃ f', writeMat el f n.text x = .ok f' ∧ Stored (matObj el).read (fun f n => Slots f n (matSlots el.kind)) f f' n x := by
    intro f n m h0 hn hm hpar hfree
    obtain ⟨k1, k2, k3⟩ := matFields_ok el ok hel m hm .no (fun _ => rfl)
    obtain ⟨f', e1, e2, e3, e4⟩ := fields_new n h0 hn _ (matSlots_names el.kind) _ k1 k2 k3 f hpar hfree
    exact ⟨f', (writeMat_eq el f n.text m).trans e1, e2, e3, mat_reads el ok hel f' n h0 hn m hm e4⟩
  have hover : ∀ (f : File α) (n : Name) (x : Mat T), n ≠ [] → (∀ w ∈ n, IsPart w) → MatOk ok x → Slots f n (matSlots el.kind) →
      ∃ f', writeMatOver el f n.text x = .ok f' ∧ Stored (matObj el).read (fun f n => Slots f n (matSlots el.kind)) f f' n x := by
    intro f n m h0 hn hm hs
    obtain ⟨k1, k2, k3⟩ := matFields_ok el ok hel m hm .allow (fun h => absurd h hc)
    obtain ⟨f', e1, e2, e3, e4⟩ := fields_over n h0 hn _ (matSlots_names el.kind) _ k1 k2 k3 f hs
    exact ⟨f', (writeMatOver_eq el ok hel m hm hc f n h0 hn hs).trans e1, e2, e3, mat_reads el ok hel f' n h0 hn m hm e4⟩
  refine ⟨⟨hnew, ?_, ?_, hover, slots_local _, (mat_lawful el ok hel).local_⟩, ?_⟩
  · intro f n m h0 hn hm hs
    show writeMat el f n.text m = _
    rw [writeMat_eq, createGroup_again f n h0 hn hs.1]
    rfl
  · intro f n m h0 hn hm hs
    obtain ⟨f', e1, e2⟩ := hover f n m h0 hn hm hs
    obtain ⟨d1, d2⟩ := dims_written el ok hel m hm hc f n h0 hn hs
    exact ⟨f', over_allow el f f' n.text m d1 d2 e1, e2⟩
  · intro f n m h0 hn hm hpar hfree
    show ∃ f', writeMatOver el f n.text m = .ok f' ∧ _
    rw [mat_over_new el m f n h0 hn hfree]
    exact hnew f n m h0 hn hm hpar hfree

/-- **C105** Sparse matrices without complex elements. -/
theorem crsObj_lawful [Zero α] (el : Elem α T) (ok : T → Prop) (hel : el.Lawful ok) (hc : el.kind ≠ .cvec) :
    (crsObj el).Lawful (CrsOk ok) (fun f n => Slots f n (crsSlots el.kind)) := by
  have hover : ∀ (f : File α) (n : Name) (x : Crs.Crs T), n ≠ [] → (∀ w ∈ n, IsPart w) → CrsOk ok x → Slots f n (crsSlots el.kind) →
      ∃ f', writeCrs el f n.text x .allow = .ok f' ∧ Stored (crsObj el).read (fun f n => Slots f n (crsSlots el.kind)) f f' n x := by
    intro f n m h0 hn hm hs
    obtain ⟨k1, k2, k3⟩ := crsFields_ok el ok hel m hm .allow (fun h => absurd h hc)
    obtain ⟨f', e1, e2, e3, e4⟩ := fields_over n h0 hn _ (crsSlots_names el.kind) _ k1 k2 k3 f hs
    exact ⟨f', (writeCrs_eq el ok f n.text m hm .allow).trans e1, e2, e3, fun h => crs_read el ok hel h f' n h0 hn m hm e4⟩
  refine ⟨?_, ?_, hover, hover, slots_local _, (crs_lawful el ok hel).local_⟩
  · intro f n m h0 hn hm hpar hfree
    obtain ⟨k1, k2, k3⟩ := crsFields_ok el ok hel m hm .no (fun _ => rfl)
    obtain ⟨f', e1, e2, e3, e4⟩ := fields_new n h0 hn _ (crsSlots_names el.kind) _ k1 k2 k3 f hpar hfree
    exact ⟨f', (writeCrs_eq el ok f n.text m hm .no).trans e1, e2, e3, fun h => crs_read el ok hel h f' n h0 hn m hm e4⟩
  · intro f n m h0 hn hm hs
    show writeCrs el f n.text m .no = _
    rw [writeCrs_eq el ok f n.text m hm .no]
    show (createGroup f n.text >>= _) = _
    rw [createGroup_again f n h0 hn hs.1]
    rfl

/-- **C105** A pair of numbers is overwritten. -/
theorem pair_rewritten (f : File α) (n : Name) (h0 : n ≠ []) (hn : ∀ w ∈ n, IsPart w) (ty ty' : Ty) (x : Num α × Num α)
    (hx : x.1.Fits ty) (hy : x.2.Fits ty') (hg : f ("Def".toList :: n) = some .group)
    (h1 : f ("Def".toList :: (n ++ ["0".toList])) ≠ some .group) (h2 : f ("Def".toList :: (n ++ ["1".toList])) ≠ some .group) (h : H5 α) (old : Num α × Num α) :
    readScalar h (writePairAllow f n.text ty ty' x) (n.text ++ "/0".toList) ty old.1 = .ok x.1 ∧
    readScalar h (writePairAllow f n.text ty ty' x) (n.text ++ "/1".toList) ty' old.2 = .ok x.2 ∧
    ∀ q, ¬ Foot n q → writePairAllow f n.text ty ty' x q = f q := by
  have p0 : IsPart "0".toList := ⟨by decide, by decide⟩
  have p1 : IsPart "1".toList := ⟨by decide, by decide⟩
  have hne : ∀ w : Str, ("Def".toList :: n : Path) ≠ "Def".toList :: (n ++ [w]) := by
    intro w e
    have := congrArg List.length e
    simp at this
  have h01 : ("Def".toList :: (n ++ ["1".toList]) : Path) ≠ "Def".toList :: (n ++ ["0".toList]) := entry_ne n _ _ (by decide)
  have w1 := scalar_write f n "0".toList h0 hn p0 ty x.1 .allow hg h1 (.inl rfl)
  have w2 := scalar_write (f.set ("Def".toList :: (n ++ ["0".toList])) (some (.data ⟨ty, [x.1]⟩))) n "1".toList h0 hn p1 ty' x.2 .allow
    (by rw [set_other _ _ _ _ (hne _)]; exact hg) (by rw [set_other _ _ _ _ h01]; exact h2) (.inl rfl)
  have e : writePairAllow f n.text ty ty' x = (f.set ("Def".toList :: (n ++ ["0".toList])) (some (.data ⟨ty, [x.1]⟩))).set
      ("Def".toList :: (n ++ ["1".toList])) (some (.data ⟨ty', [x.2]⟩)) := by
    unfold writePairAllow
    rw [show n.text ++ "/0".toList = n.text ++ '/' :: "0".toList from rfl, w1,
      show n.text ++ "/1".toList = n.text ++ '/' :: "1".toList from rfl, w2]
  rw [e]
  refine ⟨?_, ?_, ?_⟩
  · exact scalar_read h _ n "0".toList h0 hn p0 ty ty x.1 old.1 hx (by rw [set_other _ _ _ _ h01.symm, set_same])
  · exact scalar_read h _ n "1".toList h0 hn p1 ty' ty' x.2 old.2 hy (by rw [set_same])
  · intro q hq
    rw [set_other _ _ _ _ (by rintro rfl; exact hq (below_foot n _)), set_other _ _ _ _ (by rintro rfl; exact hq (below_foot n _))]

/-! ## Examples and failures -/

example : ((do
    let f ← writeList (matObj (realElem Int)).toCodec newFile "v".toList [⟨1, 1, [1]⟩, ⟨1, 2, [2, 3]⟩]
    let f ← overwriteList (matObj (realElem Int)) h5id f "v".toList [⟨1, 1, [4]⟩]
    let f ← overwriteList (matObj (realElem Int)) h5id f "v".toList [⟨1, 1, [5]⟩, ⟨2, 1, [6, 7]⟩, ⟨1, 1, [8]⟩]
    let v ← readList (matObj (realElem Int)).toCodec h5id f "v".toList
    return v.map fun m => (m.nrow, m.data) : Out (List (Nat × List Int)))) = .ok [(1, [5]), (2, [6, 7]), (1, [8])] := by decide +kernel

/-- **C105** What does not hold. A vector written with permission to overwrite under a name that is free: if it has no
entries, the call returns and nothing is stored; with matrices it throws. -/
theorem allow_new_fails :
    ((do
      let f ← writeListAllow (matObj (realElem Int)) newFile "v".toList []
      return (f ["Def".toList, "v".toList]).isNone : Out Bool)) = .ok true ∧
    ((do
      let f ← writeListAllow (matObj (realElem Int)) newFile "v".toList [⟨1, 1, [1]⟩]
      return (f ["Def".toList, "v".toList]).isNone : Out Bool)) = throwOut := by decide +kernel

/-- **C105** A vector of sparse matrices that gets longer by `write` with permission to overwrite: the call returns, the size is
the new one, and the new entries are not there. -/
theorem allow_longer_fails :
    ((do
      let f ← writeList (crsObj (realElem Int)).toCodec newFile "v".toList [⟨[0, 1], [0], [7], 1, 1⟩]
      let f ← writeListAllow (crsObj (realElem Int)) f "v".toList [⟨[0, 1], [0], [7], 1, 1⟩, ⟨[0, 1], [0], [8], 1, 1⟩]
      readSize h5id f "v".toList : Out Nat)) = .ok 2 ∧
    ((do
      let f ← writeList (crsObj (realElem Int)).toCodec newFile "v".toList [⟨[0, 1], [0], [7], 1, 1⟩]
      let f ← writeListAllow (crsObj (realElem Int)) f "v".toList [⟨[0, 1], [0], [7], 1, 1⟩, ⟨[0, 1], [0], [8], 1, 1⟩]
      let v ← readList (crsObj (realElem Int)).toCodec h5id f "v".toList
      return v.map fun m => m.values : Out (List (List Int)))) = throwOut := by decide +kernel

/-- A class that writes one number under its name, without a group. -/
def numObj : Obj Int Int where
  write f name x := .ok (writeScalar f name .int (.int x) .no)
  read h f name := do
    let x ← readScalar h f name .int (.int 0)
    match x with
    | .int z => return z
    | .real _ => throwOut
  over f name x := .ok (writeScalar f name .int (.int x) .allow)
  allow f name x := .ok (writeScalar f name .int (.int x) .allow)

/-- **C105** A class whose `write` does not throw where there is something: a vector that gets shorter and then longer again has
old entries. -/
theorem silent_write_fails :
    ((do
      let f ← writeList numObj.toCodec newFile "v".toList [1, 2]
      let f ← overwriteList numObj h5id f "v".toList [3]
      let f ← overwriteList numObj h5id f "v".toList [4, 5]
      readList numObj.toCodec h5id f "v".toList : Out (List Int))) = .ok [4, 2] := by decide +kernel

end Verif.IoNg
