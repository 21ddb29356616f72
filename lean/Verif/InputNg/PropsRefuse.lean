import Verif.InputNg.Props

/-!
# C47: lists with the wrong number of numbers are refused

A list is given as `label n x1 x2 …`.  If what follows `n` are not `n` numbers, and the checker of the application does
not say that this list is special, then the whole file is refused.
-/

namespace Verif.InputNg

open Verif.StrUtil

/-- The list has the wrong length: fewer than two words, or not as many numbers as it says. -/
def WrongCount (chk : Check) (l : Str) (ns : List Str) : Prop :=
  (∃ n, ns = [n]) ∨
  ∃ n rest k, ns = n :: rest ∧ atoi n = some (some k) ∧ chk.checkVec l ns = some false ∧ (rest.length : Int) ≠ k ∧
    rest.length < 2 ^ 31

theorem checkNumbers_bad (chk : Check) (p : Parser) (h : WrongCount chk p.lastLabel p.numeric) :
    checkNumbers chk p = throwOut := by
  rcases h with ⟨n, h⟩ | ⟨n, rest, k, h, hk, hc, hne, hlen⟩
  · unfold checkNumbers; rw [h]
  · unfold checkNumbers
    rw [h] at hc ⊢
    cases rest with
    | nil => rfl
    | cons n2 rest =>
      simp only [hk, ofNested, bind, Except.bind, hc, ofThrow]
      have hb : -2147483648 ≤ k ∧ k ≤ 2147483647 := by
        unfold atoi at hk
        split at hk
        · unfold stdAtoi at hk
          split at hk <;> (try simp only at hk) <;> split at hk <;> simp at hk <;> omega
        · simp at hk
      rw [if_pos]
      refine ⟨by simp, ?_⟩
      simp only [List.length_cons] at hne hlen ⊢
      omega

/-- After the list with the wrong length. -/
def Stuck (chk : Check) (p : Parser) : Prop :=
  p.state = .inValueOrLabel ∧ p.buffer = [] ∧ WrongCount chk p.lastLabel p.numeric

theorem wrong_line (chk : Check) (hc1 : ∀ l, chk.checkSimpleLabel l = true)
    (f : Bool) (p : Parser) (T : List (Str × Str)) (V : List (Str × List Str))
    (h : Good chk f p T V) (hV : V.length < 2 ^ 31) (l : Str) (ns : List Str) (hl : IsLabel l)
    (hns : ∀ n ∈ ns, IsNumber n) (hv : WrongCount chk l ns) :
    ∃ p', feed chk p (l ++ (' ' :: spaced ns) ++ ['\n']) = .ok p' ∧ Stuck chk p' := by
  obtain ⟨p1, hf1, hs1, hb1, hn1, hr1⟩ := start_label chk f p T V h hV l hl
  have hne : ns ≠ [] := by
    rcases hv with ⟨n, rfl⟩ | ⟨n, r, k, rfl, _⟩ <;> simp
  rw [List.append_assoc, feed_append chk p p1 _ _ hf1, List.cons_append,
    feed_cons chk p1 _ _ _ (saveLabel chk p1 hs1 (by rw [hb1]; exact label_ne hl) hc1 ' ' (.inr rfl)),
    if_neg (by decide), feed_numbers chk ns hns hne _ (.inl rfl) rfl]
  refine ⟨_, rfl, rfl, rfl, ?_⟩
  simpa [hn1, hb1] using hv

theorem stuck_letter (chk : Check) (p : Parser) (h : Stuck chk p) (c : Char) (hc : findTypeOf c = .alpha) (s : Str) :
    feed chk p (c :: s) = throwOut := by
  have : parseChar chk p c = throwOut := by
    unfold parseChar
    simp [hc, h.1, checkNumbers_bad chk p h.2.2, bind, Except.bind, throwOut]
  unfold feed
  rw [List.foldlM_cons, this]
  rfl

theorem stuck_label (chk : Check) (p : Parser) (h : Stuck chk p) (l : Str) (hl : IsLabel l) (s : Str) :
    feed chk p (l ++ s) = throwOut := by
  obtain ⟨⟨c, t, rfl, hc⟩, hp⟩ := hl
  exact stuck_letter chk p h c (letter_type c (hp c (by simp)).1 hc) _

theorem stuck_blank (chk : Check) (p : Parser) (h : Stuck chk p) : parseChar chk p '\n' = .ok p := by
  have e : findTypeOf '\n' = .endOfLine := by decide
  simp [parseChar, e, h.1, h.2.1]

theorem stuck_lines (chk : Check) (ls : List Line) (hls : ∀ l ∈ ls, l.Shape) (hcm : CommentsOk true ls) (p : Parser)
    (h : Stuck chk p) :
    feed chk p (ls.flatMap Line.expanded ++ ['\n']) = throwOut ∨
      feed chk p (ls.flatMap Line.expanded ++ ['\n']) = .ok p := by
  induction ls with
  | nil => right; rw [List.flatMap_nil, List.nil_append, feed_cons chk p p _ _ (stuck_blank chk p h)]; rfl
  | cons l ls ih =>
    have hok := hls l (by simp)
    rw [List.flatMap_cons, List.append_assoc]
    cases l with
    | text l v =>
      left
      have : Line.expanded (.text l v) = l ++ ('=' :: v ++ ['\n']) := by simp [Line.expanded, Line.render]
      rw [this, List.append_assoc, stuck_label chk p h l hok.1]
    | vec l v =>
      left
      have : Line.expanded (.vec l v) = l ++ (' ' :: spaced v ++ ['\n']) := by simp [Line.expanded, Line.render]
      rw [this, List.append_assoc, stuck_label chk p h l hok.1]
    | blank =>
      rw [show Line.expanded .blank = ['\n'] from rfl, List.singleton_append,
        feed_cons chk p p _ _ (stuck_blank chk p h)]
      exact ih (fun l' hl' => hls l' (by simp [hl'])) hcm
    | comment t => exact absurd hcm.1 (by decide)
    | expand a b vs =>
      left
      obtain ⟨h1, _, _, h4, _⟩ := hok
      cases vs with
      | nil => exact absurd rfl h4
      | cons v vs =>
        have : Line.expanded (.expand a b (v :: vs)) =
            a ++ (ttos 0 ++ b ++ ('=' :: v) ++ ['\n'] ++ newLines a b 1 vs) := by simp [Line.expanded, newLines]
        rw [this, List.append_assoc, stuck_label chk p h a h1]

/-- **C47.** A file in which a list has not as many numbers as it says (or has fewer than two words) is refused, whatever
comes before and after it. -/
theorem wrong_count_refused (chk : Check) (ls more : List Line) (l : Str) (ns : List Str) (h : FileOk chk ls)
    (hl : IsLabel l) (hl' : l.head? ≠ some '!') (hns : ∀ n ∈ ns, IsNumber n) (hw : WrongCount chk l ns)
    (hmore : ∀ m ∈ more, m.Shape) (hcm : CommentsOk true more) :
    load chk (render (ls ++ .vec l ns :: more)) = throwOut := by
  have hshape : ∀ m ∈ ls ++ .vec l ns :: more, m.Shape := by
    intro m hm
    rcases List.mem_append.1 hm with hm | hm
    · exact (h.lines m hm).shape
    · rcases List.mem_cons.1 hm with rfl | hm
      · exact ⟨hl, hl', hns⟩
      · exact hmore m hm
  obtain ⟨p, hp, hg⟩ := parse_lines chk h.labels h.values ls h.lines false h.comments .init [] []
    (.inl ⟨rfl, rfl, rfl, rep_init⟩) (by simpa using h.size)
  have hsz := h.size
  obtain ⟨p', hp', hst⟩ := wrong_line chk h.labels true p _ _ hg (by simp; omega) l ns hl hns hw
  have hf : feed chk .init ((ls ++ .vec l ns :: more).flatMap Line.expanded ++ ['\n']) =
      feed chk p' (more.flatMap Line.expanded ++ ['\n']) := by
    rw [List.flatMap_append, List.flatMap_cons, List.append_assoc, feed_append chk _ _ _ _ hp, List.append_assoc]
    exact feed_append chk _ _ _ _ hp'
  simp only [load, changeData_ok _ hshape, bind, Except.bind, parseInternal]
  unfold feed at hf
  rw [hf]
  have hne : p'.numeric.length > 0 := by
    rcases hst.2.2 with ⟨n, e⟩ | ⟨n, r, k, e, _⟩ <;> rw [e] <;> simp
  have hs := stuck_lines chk more hmore hcm p' hst
  unfold feed at hs
  rcases hs with e | e
  · rw [e]; rfl
  · rw [e]
    simp only [hne, if_true, checkNumbers_bad chk p' hst.2.2]
    rfl

/-- `L 2 7 8 9` and `L 2 7` and `L 2` are refused. -/
example : load anyCheck "A=x\nL 2 7 8 9\nB=y\n".toList = throwOut := by rfl
example : load anyCheck "L 2 7\n".toList = throwOut := by rfl
example : load anyCheck "L 2\n".toList = throwOut := by rfl

/-- The hypotheses of `wrong_count_refused` can be met. -/
example : WrongCount anyCheck "L".toList ["2".toList, "7".toList, "8".toList, "9".toList] ∧ FileOk anyCheck [] ∧
    IsLabel "L".toList := by
  refine ⟨.inr ⟨"2".toList, ["7".toList, "8".toList, "9".toList], 2, rfl, by decide +kernel, by decide +kernel, by decide,
    by decide⟩, ⟨by simp, trivial, by intro; rfl, by intros; rfl, by decide⟩, ⟨'L', [], rfl, by unfold NumberChar; decide⟩, ?_⟩
  intro c hc
  simp at hc
  subst hc
  exact ⟨by unfold Plain; decide, by decide⟩

end Verif.InputNg
