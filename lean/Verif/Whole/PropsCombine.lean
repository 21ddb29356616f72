import Verif.Whole.ModelCombine
import Verif.IoSimple.PropsCf
import Verif.Spectral.Props

/-!
# C128: continued fractions of several files are combined and plotted
-/

namespace Verif.Whole.Combine

open Verif.IoSimple Verif.Spectral Verif.StrUtil

variable {α W : Type}

/-! ## Numbers that are rounded when they are written -/

/-- Numbers are written as words that do not begin with `#`, and read back as `r` of them: what is left by the digits written. -/
structure Rounds (f : Fmt α) (r : α → α) : Prop where
  word : ∀ a, IsWord (f.text a)
  hash : ∀ a, (f.text a).head? ≠ some '#'
  reads : ∀ (a : α) (ws : Str) (c : Char) (rest : Str), (∀ x ∈ ws, isWs x = true) → isWs c = true →
    f.rd ⟨ws ++ f.text a ++ c :: rest, false, false⟩ = (⟨c :: rest, false, false⟩, r a)
  parses : ∀ a x, f.parse (f.text a) x = r a
  twice : ∀ a, r (r a) = r a

/-- The fraction that is read where `c` was written. -/
def readBack [DecidableEq W] (r : α → α) (q : W → W) (zero : W) (diag : List α → List α → List α × List α) (c : Cf α W) : Cf α W :=
  Cf.diagonalize zero diag ⟨c.a.map r, c.b.map r, c.matsubara, q c.weight, r c.eg, c.isign, c.eigs.map r, c.intensity.map r⟩

/-- The sizes and the sign of a fraction fit into an `int`. -/
structure Fits (c : Cf α W) : Prop where
  la : c.a.length ≤ 2147483647
  lb : c.b.length ≤ 2147483647
  le : c.eigs.length ≤ 2147483647
  li : c.intensity.length ≤ 2147483647
  sign : -2147483648 ≤ c.isign ∧ c.isign ≤ 2147483647

/-- `c` is the last fraction in the file: anything can be before it, and what is after it does not have the label of a fraction. -/
def LastIn (f : Fmt α) (g : Fmt W) (c : Cf α W) (file : Str) : Prop :=
  ∃ pre post, file = pre ++ cfText f g c post ∧ Term pre ∧ hits "#Avector".toList (cwords post) = []

/-! ## Reading at a place -/

theorem readElems_rounds {f : Fmt α} {r : α → α} (h : Rounds f r) (xs : List α) (tail : Str) :
    readElems f.rd xs.length ⟨'\n' :: ((xs.flatMap fun x => f.text x ++ ['\n']) ++ tail), false, false⟩ =
      (⟨'\n' :: tail, false, false⟩, xs.map r) := by
  induction xs with
  | nil => rfl
  | cons x xs ih =>
    simp only [List.length_cons, readElems]
    have e : '\n' :: (((x :: xs).flatMap fun x => f.text x ++ ['\n']) ++ tail) =
        ['\n'] ++ f.text x ++ '\n' :: ((xs.flatMap fun x => f.text x ++ ['\n']) ++ tail) := by simp
    rw [e, h.reads x ['\n'] '\n' _ (by simp; rfl) rfl]
    simp only
    rw [ih]
    rfl

/-- The loop of `advance` finds the word number `k` that begins with the label. -/
theorem adv_find (s w : Str) (hs : s <+: w) (hw : IsWord w) (ch : Char) (hch : isWs ch = true) (rest : Str) (k : Nat) :
    ∀ (fuel : Nat) (t temp saved : Str) (counter : Nat), Term t → (t ++ (w ++ ch :: rest)).length < fuel →
      k = counter + (hits s (cwords t)).length →
      advLoop s k fuel ⟨t ++ (w ++ ch :: rest), false, false⟩ temp saved counter = some (⟨ch :: rest, false, false⟩, w, true, k) := by
  intro fuel
  induction fuel with
  | zero => intro t temp saved counter _ h; omega
  | succ fuel ih =>
    intro t temp saved counter ht hf hk
    rw [advLoop, if_neg (by simp)]
    rcases term_cases ht with hb | ⟨ws, w', c, t', rfl, hws, hw', hc, ht'⟩
    · rw [readWord_at hb hw hch]
      rw [cwords_blank hb] at hk
      have : k = counter := by simpa [hits] using hk
      simp only [Stream.good, Bool.not_false, Bool.and_self, Bool.not_true, Bool.false_eq_true, if_false]
      rw [if_pos ((take_prefix s w).2 hs), if_pos ⟨by omega, by omega⟩, this]
    · have e : ws ++ (w' ++ c :: t') ++ (w ++ ch :: rest) = ws ++ (w' ++ c :: (t' ++ (w ++ ch :: rest))) := by simp
      have hcw : cwords (ws ++ (w' ++ c :: t')) = w' :: cwords (c :: t') := by
        rw [cwords_wss ws _ hws, cwords_token w' c t' hw'.1 hw'.2 hc]
      rw [hcw] at hk
      rw [e, readWord_at hws hw' hc]
      simp only [Stream.good, Bool.not_false, Bool.and_self, Bool.not_true, Bool.false_eq_true, if_false]
      have hlen : (c :: (t' ++ (w ++ ch :: rest))).length < fuel := by
        have h0 : 0 < w'.length := List.length_pos_of_ne_nil hw'.1
        rw [e] at hf
        simp only [List.length_append, List.length_cons] at hf ⊢
        omega
      by_cases hp : s <+: w'
      · rw [if_pos ((take_prefix s w').2 hp)]
        rw [hits_cons_pos hp, List.length_cons] at hk
        rw [if_neg (by omega)]
        exact ih (c :: t') w' _ (counter + 1) ht' hlen (by omega)
      · rw [if_neg (fun h => hp ((take_prefix s w').1 h))]
        rw [hits_cons_neg hp] at hk
        exact ih (c :: t') w' _ counter ht' hlen hk

theorem advanceTo_find (s w : Str) (hs : s <+: w) (hw : IsWord w) (ch : Char) (hch : isWs ch = true) (rest t : Str) (ht : Term t) :
    advanceTo ⟨t ++ (w ++ ch :: rest), false, false⟩ s ((hits s (cwords t)).length : Nat) =
      .ok (⟨ch :: rest, false, false⟩, w, (hits s (cwords t)).length) := by
  unfold advanceTo
  rw [adv_find s w hs hw ch hch rest _ _ t notFound notFound 0 ht (Nat.lt_succ_self _) (by omega)]
  simp

theorem readVector_rounds {f : Fmt α} {r : α → α} (hr : Rounds f r) (label : Str) (hw : IsWord label) (xs : List α)
    (hlen : xs.length ≤ 2147483647) (file rest t : Str) (hb : NoHit label t) :
    readVector f.rd file ⟨t ++ (label ++ '\n' :: (vectorText f.text xs ++ '\n' :: rest)), false, false⟩ [] label 0 =
      .ok (⟨'\n' :: '\n' :: rest, false, false⟩, xs.map r) := by
  have hadv : advance file ⟨t ++ (label ++ '\n' :: (vectorText f.text xs ++ '\n' :: rest)), false, false⟩ label 0 =
      .ok (⟨'\n' :: (vectorText f.text xs ++ '\n' :: rest), false, false⟩, label, 0) := by
    unfold advance
    rw [if_neg (by omega)]
    have := advanceTo_find label label (List.prefix_refl _) hw '\n' rfl (vectorText f.text xs ++ '\n' :: rest) t hb.1
    rw [hb.2] at this
    exact this
  unfold readVector
  rw [hadv]
  simp only [bind, Except.bind]
  have e1 : '\n' :: (vectorText f.text xs ++ '\n' :: rest) =
      ['\n'] ++ Nat.toDigits 10 xs.length ++ '\n' :: ((xs.flatMap fun x => f.text x ++ ['\n']) ++ '\n' :: rest) := by
    simp [vectorText]
  rw [e1, readInt_digits xs.length hlen ['\n'] '\n' _ (by intro y hy; simp at hy; subst hy; rfl) rfl]
  simp only []
  cases xs with
  | nil => simp [pure, Except.pure]
  | cons x xs =>
    rw [if_neg (by simp; omega), if_neg (by simp; omega), Int.toNat_natCast, readElems_rounds hr (x :: xs) ('\n' :: rest)]
    rfl

/-- A fraction is read as far as the digits in the file tell. -/
theorem cf_rounds [DecidableEq W] {f : Fmt α} {g : Fmt W} {r : α → α} {q : W → W} (hf : Rounds f r) (hg : Rounds g q) (zeroA : α) (zero : W)
    (diag : List α → List α → List α × List α) (c : Cf α W) (hc : Fits c) (file t rest : Str) (hb : NoHit "#Avector".toList t) :
    Cf.read f g zeroA zero diag file ⟨t ++ cfText f g c rest, false, false⟩ =
      .ok (⟨'\n' :: '\n' :: rest, false, false⟩, readBack r q zero diag c) := by
  have b1 : Blank ['\n'] := by intro c h; simp at h; subst h; rfl
  have b2 : Blank ['\n', '\n'] := by intro c h; simp at h; subst h; rfl
  have b3 : Blank ['\n', ' ', '\n'] := by intro c h; simp at h; rcases h with rfl | rfl | rfl <;> rfl
  unfold Cf.read readAb readFreq cfText
  rw [readVector_rounds hf _ ⟨by decide, by decide⟩ c.a hc.la file _ t hb]
  simp only [bind, Except.bind]
  rw [show ∀ T : Str, '\n' :: '\n' :: T = ['\n', '\n'] ++ T from fun _ => rfl]
  rw [readVector_rounds hf _ ⟨by decide, by decide⟩ c.b hc.lb file _ _ (noHit_blank b2)]
  simp only [pure, Except.pure]
  rw [show ∀ T : Str, '\n' :: '\n' :: T = ['\n', '\n'] ++ T from fun _ => rfl]
  rw [readline_here parseStr _ _ (freqName c.matsubara) (parseStr_word _ (freqName_word _))
    (isWord_append (by decide) (freqName_word _)) file _ _ b2]
  simp only []
  rw [show ∀ T : Str, '\n' :: ' ' :: '\n' :: T = ['\n', ' ', '\n'] ++ T from fun _ => rfl]
  rw [readline_here g.parse _ _ (q c.weight) (hg.parses _) (isWord_append (by decide) (hg.word _)) file _ _ b3]
  simp only []
  rw [show ∀ T : Str, '\n' :: T = ['\n'] ++ T from fun _ => rfl]
  rw [readline_here f.parse _ _ (r c.eg) (hf.parses _) (isWord_append (by decide) (hf.word _)) file _ _ b1]
  simp only []
  rw [show ∀ T : Str, '\n' :: T = ['\n'] ++ T from fun _ => rfl]
  rw [readline_here parseInt _ _ c.isign (parseInt_decimal _ hc.sign) (isWord_append (by decide) (decimal_word _)) file _ _ b1]
  simp only []
  rw [show ∀ T : Str, '\n' :: T = ['\n'] ++ T from fun _ => rfl]
  rw [readVector_rounds hf _ ⟨by decide, by decide⟩ c.eigs hc.le file _ _ (noHit_blank b1)]
  simp only []
  rw [show ∀ T : Str, '\n' :: '\n' :: T = ['\n', '\n'] ++ T from fun _ => rfl]
  rw [readVector_rounds hf _ ⟨by decide, by decide⟩ c.intensity hc.li file _ _ (noHit_blank b2)]
  simp only []
  have hm : decide (freqName c.matsubara = "Matsubara".toList) = c.matsubara := by
    cases c.matsubara <;> decide
  rw [hm]
  rfl

/-- Reading what has been read and written again changes nothing. -/
theorem readBack_twice [DecidableEq W] {f : Fmt α} {g : Fmt W} {r : α → α} {q : W → W} (hf : Rounds f r) (hg : Rounds g q) (zero : W)
    (diag : List α → List α → List α × List α) (c : Cf α W) :
    readBack r q zero diag (readBack r q zero diag c) = readBack r q zero diag c := by
  have e : ∀ l : List α, (l.map r).map r = l.map r := by
    intro l
    rw [List.map_map]
    exact List.map_congr_left fun x _ => hf.twice x
  unfold readBack Cf.diagonalize
  by_cases h : q c.weight = zero
  · simp only [if_pos h, e, hf.twice, hg.twice]
  · simp only [if_neg h, e, hf.twice, hg.twice]

/-! ## The last fraction of a file -/

theorem split_last (s : Str) : ∀ (n : Nat) (t : Str), t.length ≤ n → Term t → hits s (cwords t) ≠ [] →
    ∃ p w c p', t = p ++ (w ++ c :: p') ∧ Term p ∧ IsWord w ∧ s <+: w ∧ isWs c = true ∧ NoHit s (c :: p') ∧
      (hits s (cwords t)).length = (hits s (cwords p)).length + 1 := by
  intro n
  induction n with
  | zero =>
    intro t hl _ h
    have : t = [] := List.eq_nil_of_length_eq_zero (by omega)
    subst this
    exact absurd (by simp [cwords_nil, hits]) h
  | succ n ih =>
    intro t hl ht h
    rcases term_cases ht with hb | ⟨ws, w, c, t', rfl, hws, hw, hc, ht'⟩
    · exact absurd (by rw [cwords_blank hb]; rfl) h
    · have hcw : cwords (ws ++ (w ++ c :: t')) = w :: cwords (c :: t') := by
        rw [cwords_wss ws _ hws, cwords_token w c t' hw.1 hw.2 hc]
      by_cases hh : hits s (cwords (c :: t')) = []
      · have hp : s <+: w := by
          by_contra hp
          rw [hcw, hits_cons_neg hp] at h
          exact h hh
        have hbl : Term ws := (noHit_blank (s := s) hws).1
        refine ⟨ws, w, c, t', rfl, hbl, hw, hp, hc, ⟨ht', hh⟩, ?_⟩
        rw [hcw, hits_cons_pos hp, hh, cwords_blank hws]
        rfl
      · have h0 : 0 < w.length := List.length_pos_of_ne_nil hw.1
        obtain ⟨p, w2, c2, p', e, h1, h2, h3, h4, h5, h6⟩ := ih (c :: t')
          (by simp only [List.length_append, List.length_cons] at hl ⊢; omega) ht' hh
        have hcp : Term (ws ++ (w ++ p)) ∧ cwords (ws ++ (w ++ p)) = w :: cwords p := by
          rcases p with _ | ⟨d, p⟩
          · exfalso
            rw [List.nil_append] at e
            rcases hw2 : w2 with _ | ⟨x, xs⟩
            · exact h2.1 hw2
            · rw [hw2] at e
              have : c = x := by simpa using congrArg List.head? e
              subst this
              have := h2.2 c (by rw [hw2]; exact List.mem_cons_self)
              rw [hc] at this
              cases this
          · have : c = d := by simpa using congrArg List.head? e
            subst this
            refine ⟨?_, by rw [cwords_wss ws _ hws, cwords_token w c p hw.1 hw.2 hc]⟩
            rcases h1 with h1 | ⟨x, hx1, hx2⟩
            · cases h1
            · exact .inr ⟨x, by rw [← List.append_assoc, List.getLast?_append_of_ne_nil _ (by simp)]; exact hx1, hx2⟩
        refine ⟨ws ++ (w ++ p), w2, c2, p', by rw [e]; simp, hcp.1, h2, h3, h4, h5, ?_⟩
        rw [hcw, hcp.2]
        by_cases hp : s <+: w
        · rw [hits_cons_pos hp, hits_cons_pos hp, List.length_cons, List.length_cons, h6]
        · rw [hits_cons_neg hp, hits_cons_neg hp, h6]

/-- What is after the label of a fraction does not have it. -/
theorem noHit_body {f : Fmt α} {g : Fmt W} {r : α → α} {q : W → W} (hf : Rounds f r) (hg : Rounds g q) (c : Cf α W) :
    ∃ body, (∀ rest, cfText f g c rest = "#Avector".toList ++ '\n' :: (body ++ rest)) ∧ NoHit "#Avector".toList ('\n' :: body) := by
  have hs : "#Avector".toList.head? = some '#' := by decide
  have nl : NoHit "#Avector".toList ['\n'] := noHit_blank (by intro c h; simp at h; subst h; rfl)
  have nb : NoHit "#Avector".toList [' ', '\n'] := noHit_blank (by intro c h; simp at h; rcases h with rfl | rfl <;> rfl)
  have lab : ∀ l : Str, IsWord l → ¬ "#Avector".toList <+: l → NoHit "#Avector".toList (l ++ ['\n']) :=
    fun l h1 h2 => noHit_word h1 h2
  have pre : ∀ l t : Str, l.take 2 ≠ ['#', 'A'] → l.length ≥ 2 → ¬ "#Avector".toList <+: l ++ t := by
    rintro l t h1 h2 ⟨u, hu⟩
    apply h1
    have := congrArg (List.take 2) hu
    rw [List.take_append_of_le_length (by decide), List.take_append_of_le_length (by omega)] at this
    exact this.symm
  have h2 := lab "#Bvector".toList ⟨by decide, by decide⟩ (by decide)
  have h3 := lab ("#FreqEnum=".toList ++ freqName c.matsubara) (isWord_append (by decide) (freqName_word _))
    (pre _ _ (by decide) (by decide))
  have h4 := lab ("#CFWeight=".toList ++ g.text c.weight) (isWord_append (by decide) (hg.word _)) (pre _ _ (by decide) (by decide))
  have h5 := lab ("#CFEnergy=".toList ++ f.text c.eg) (isWord_append (by decide) (hf.word _)) (pre _ _ (by decide) (by decide))
  have h6 := lab ("#CFIsign=".toList ++ decimal c.isign) (isWord_append (by decide) (decimal_word _)) (pre _ _ (by decide) (by decide))
  have h7 := lab "#CFEigs".toList ⟨by decide, by decide⟩ (by decide)
  have h8 := lab "#CFIntensities".toList ⟨by decide, by decide⟩ (by decide)
  have v : ∀ xs : List α, NoHit "#Avector".toList (vectorText f.text xs ++ ['\n']) := by
    intro xs
    have := ((noHit_word (digits_word xs.length) (noHit_digits hs xs.length)).append
      (noHit_flat (s := "#Avector".toList) (xs := xs) hf.word fun a => noHit_of_head hs (hf.hash a))).append nl
    simpa [vectorText] using this
  have key := nl.append <| (v c.a).append <| h2.append <| (v c.b).append <| h3.append <| nb.append <| h4.append <| h5.append <|
    h6.append <| h7.append <| (v c.eigs).append <| h8.append (v c.intensity)
  unfold cfText
  generalize "#Avector".toList = l1 at *
  generalize "#Bvector".toList = l2 at *
  generalize "#FreqEnum=".toList = l3 at *
  generalize "#CFWeight=".toList = l4 at *
  generalize "#CFEnergy=".toList = l5 at *
  generalize "#CFIsign=".toList = l6 at *
  generalize "#CFEigs".toList = l7 at *
  generalize "#CFIntensities".toList = l8 at *
  refine ⟨_, fun rest => ?_, by simpa only [List.append_assoc, List.cons_append, List.nil_append] using key⟩
  simp only [List.append_assoc, List.cons_append, List.nil_append]

/-- The last fraction of a file is read, whatever is before it. -/
theorem lastOf_spec [DecidableEq W] {f : Fmt α} {g : Fmt W} {r : α → α} {q : W → W} (hf : Rounds f r) (hg : Rounds g q) (zeroA : α) (zero : W)
    (diag : List α → List α → List α × List α) (c : Cf α W) (hc : Fits c) (file : Str) (hl : LastIn f g c file) :
    lastOf f g zeroA zero diag file = .ok (readBack r q zero diag c) := by
  obtain ⟨pre, post, rfl, hpre, hpost⟩ := hl
  obtain ⟨body, hbody, hnh⟩ := noHit_body hf hg c
  have hword : IsWord "#Avector".toList := ⟨by decide, by decide⟩
  have hne : "#Avector".toList ≠ notFound := by decide
  generalize hA : "#Avector".toList = A at *
  have ehits : hits A (cwords (pre ++ cfText f g c post)) = hits A (cwords pre) ++ [A] := by
    rw [cwords_append _ _ hpre, hits_append, hbody, cwords_token A '\n' _ hword.1 hword.2 rfl, hits_cons_pos (List.prefix_refl _)]
    congr 1
    rw [show '\n' :: (body ++ post) = ('\n' :: body) ++ post from rfl, cwords_append _ _ hnh.1, hits_append, hnh.2, hpost]
    rfl
  obtain ⟨st', _, hend⟩ := advLoop_end A (-1) ((pre ++ cfText f g c post).length + 1) (.ofText (pre ++ cfText f g c post)) notFound notFound 0
    rfl (Nat.lt_succ_self _) (Or.inl (by omega))
  rw [show (Stream.ofText (pre ++ cfText f g c post)).rest = pre ++ cfText f g c post from rfl, ehits] at hend
  have hgo : ∃ t p, advance (pre ++ cfText f g c post) (.ofText (pre ++ cfText f g c post)) A (-1) =
      .ok (⟨t ++ cfText f g c post, false, false⟩, p) ∧ NoHit A t := by
    unfold advance
    rw [if_pos rfl]
    rw [show (Stream.ofText (pre ++ cfText f g c post)).rest = pre ++ cfText f g c post from rfl]
    rw [hend]
    simp only [List.getLast?_append, List.getLast?_singleton, Option.some_or, Option.getD_some, List.length_append,
      List.length_singleton, Nat.zero_add]
    rw [if_pos hne]
    by_cases hn : hits A (cwords pre) = []
    · rw [if_neg (by simp [hn])]
      exact ⟨pre, _, rfl, hpre, hn⟩
    · obtain ⟨p, w, ch, p', e, h1, h2, h3, h4, h5, h6⟩ := split_last A _ pre (le_refl _) hpre hn
      have h7 : (((hits A (cwords pre)).length + 1 : Nat) : Int) - 2 = ((hits A (cwords p)).length : Nat) := by omega
      rw [if_pos (by omega), h7]
      have e2 : Stream.ofText (pre ++ cfText f g c post) = ⟨p ++ (w ++ ch :: (p' ++ cfText f g c post)), false, false⟩ := by
        rw [e]
        simp [Stream.ofText]
      rw [e2, advanceTo_find A w h3 h2 ch h4 _ p h1]
      exact ⟨ch :: p', _, rfl, h5⟩
  obtain ⟨t, p, hadv, ht⟩ := hgo
  unfold lastOf
  rw [hA, hadv]
  simp only [bind, Except.bind]
  rw [cf_rounds hf hg zeroA zero diag c hc _ t post (by rw [hA]; exact ht)]
  rfl

/-! ## The programs -/

theorem many_rounds [DecidableEq W] {f : Fmt α} {g : Fmt W} {r : α → α} {q : W → W} (hf : Rounds f r) (hg : Rounds g q) (zeroA : α) (zero : W)
    (diag : List α → List α → List α × List α) (file : Str) (cs : List (Cf α W)) (hc : ∀ c ∈ cs, Fits c) (ws rest : Str) (hb : Blank ws) :
    ∃ st, readMany f g zeroA zero diag file cs.length ⟨ws ++ manyText f g cs rest, false, false⟩ =
      .ok (st, cs.map (readBack r q zero diag)) := by
  induction cs generalizing ws with
  | nil => exact ⟨_, rfl⟩
  | cons c cs ih =>
    obtain ⟨st, h⟩ := ih (fun c h => hc c (List.mem_cons_of_mem _ h)) ['\n', '\n'] (by intro c h; simp at h; subst h; rfl)
    refine ⟨st, ?_⟩
    rw [List.length_cons, readMany, manyText, cf_rounds hf hg zeroA zero diag c (hc c List.mem_cons_self) file ws _ (noHit_blank hb)]
    simp only [bind, Except.bind]
    rw [show ∀ T : Str, '\n' :: '\n' :: T = ['\n', '\n'] ++ T from fun _ => rfl, h]
    rfl

theorem coll_rounds [DecidableEq W] {f : Fmt α} {g : Fmt W} {r : α → α} {q : W → W} (hf : Rounds f r) (hg : Rounds g q) (zeroA : α) (zero : W)
    (diag : List α → List α → List α × List α) (cs : List (Cf α W)) (hc : ∀ c ∈ cs, Fits c) (hne : cs ≠ [])
    (hlen : cs.length ≤ 2147483647) :
    ∃ st m, readColl f g zeroA zero diag (collText f g cs []) (.ofText (collText f g cs [])) 0 =
      .ok (st, cs.map (readBack r q zero diag), m) := by
  have hw : IsWord (collLabel ++ ['='] ++ Nat.toDigits 10 cs.length) := isWord_append (by decide) (digits_word _)
  have hparse : ∀ x, parseInt (Nat.toDigits 10 cs.length) x = (cs.length : Int) := by
    intro x
    have := parseInt_decimal (cs.length : Int) (by omega) x
    unfold decimal at this
    rw [if_neg (by omega)] at this
    simpa using this
  obtain ⟨st, hr⟩ := many_rounds hf hg zeroA zero diag (collText f g cs []) cs hc ['\n'] [] (by intro c h; simp at h; subst h; rfl)
  have hrl := readline_here parseInt (collLabel ++ ['=']) (Nat.toDigits 10 cs.length) (cs.length : Int) hparse hw
    (collText f g cs []) (manyText f g cs []) [] (by intro c h; simp at h) 0
  unfold readColl
  have e : Stream.ofText (collText f g cs []) =
      ⟨[] ++ ((collLabel ++ ['='] ++ Nat.toDigits 10 cs.length) ++ '\n' :: manyText f g cs []), false, false⟩ := rfl
  rw [e, Nat.cast_zero, hrl]
  simp only [bind, Except.bind]
  have hpos : 0 < cs.length := List.length_pos_of_ne_nil hne
  rw [if_neg (by omega), Int.toNat_natCast]
  rw [show ∀ T : Str, '\n' :: T = ['\n'] ++ T from fun _ => rfl, hr]
  exact ⟨_, _, rfl⟩

/-- The diagonalization gives one eigenvalue and one intensity for each row. -/
def Sized (diag : List α → List α → List α × List α) : Prop :=
  ∀ a b, (diag a b).1.length = a.length ∧ (diag a b).2.length = a.length

theorem readBack_fits [DecidableEq W] (r : α → α) (q : W → W) (zero : W) {diag : List α → List α → List α × List α} (hd : Sized diag)
    {c : Cf α W} (hc : Fits c) : Fits (readBack r q zero diag c) := by
  obtain ⟨h1, h2⟩ := hd (c.a.map r) (c.b.map r)
  rw [List.length_map] at h1 h2
  unfold readBack Cf.diagonalize
  split
  · exact ⟨by simpa using hc.la, by simpa using hc.lb, by simpa using hc.le, by simpa using hc.li, hc.sign⟩
  · exact ⟨by simpa using hc.la, by simpa using hc.lb, by have := hc.la; simpa [h1] using this,
      by have := hc.la; simpa [h2] using this, hc.sign⟩

theorem mapM_last {β γ : Type} (F : β → Out γ) : ∀ (l : List β) (m : List γ), List.Forall₂ (fun x y => F x = .ok y) l m → l.mapM F = .ok m
  | [], _, h => by cases h; rfl
  | x :: l, _, h => by
    cases h with
    | cons h1 h2 =>
      rw [List.mapM_cons, h1, ]
      simp only [bind, Except.bind]
      rw [mapM_last F l _ h2]
      rfl

/-- **C128** The program that combines prints a collection with the last fraction of every file, in the order of the files. -/
theorem combine_spec [DecidableEq W] {f : Fmt α} {g : Fmt W} {r : α → α} {q : W → W} (hf : Rounds f r) (hg : Rounds g q) (zeroA : α) (zero : W)
    (diag : List α → List α → List α × List α) (files : List Str) (cs : List (Cf α W)) (hc : ∀ c ∈ cs, Fits c)
    (hl : List.Forall₂ (fun file c => LastIn f g c file) files cs) (hne : files ≠ []) :
    combine f g zeroA zero diag files = .ok (some (collText f g (cs.map (readBack r q zero diag)) [])) := by
  have h : files.mapM (lastOf f g zeroA zero diag) = .ok (cs.map (readBack r q zero diag)) := by
    apply mapM_last
    clear hne
    induction hl with
    | nil => exact .nil
    | cons h1 _ ih =>
      exact .cons (lastOf_spec hf hg zeroA zero diag _ (hc _ List.mem_cons_self) _ h1) (ih fun c h => hc c (List.mem_cons_of_mem _ h))
  unfold combine
  rw [if_neg hne, h]
  simp only [bind, Except.bind]
  rw [coll_write]
  rfl

theorem toCF_ok [DecidableEq W] (r : α → α) (q : W → W) (zero : W) {diag : List α → List α → List α × List α} (hd : Sized diag) (val : α → ℝ)
    (valW : W → ℂ) (hz : valW zero = 0) (c : Cf α W) :
    (toCF val valW (readBack r q zero diag c)).matsubara = c.matsubara ∧
      ((toCF val valW (readBack r q zero diag c)).weight = 0 ∨
        (toCF val valW (readBack r q zero diag c)).intensity.length = (toCF val valW (readBack r q zero diag c)).eigs.length) := by
  obtain ⟨h1, h2⟩ := hd (c.a.map r) (c.b.map r)
  unfold readBack Cf.diagonalize toCF
  split
  · rename_i h
    refine ⟨rfl, .inl ?_⟩
    show valW (q c.weight) = 0
    rw [show q c.weight = zero from h, hz]
  · exact ⟨rfl, .inr (by simp [h1, h2])⟩

/-- What is read from the combined file is what was read from the files. -/
theorem combined_read [DecidableEq W] {f : Fmt α} {g : Fmt W} {r : α → α} {q : W → W} (hf : Rounds f r) (hg : Rounds g q) (zeroA : α) (zero : W)
    (diag : List α → List α → List α × List α) (hd : Sized diag) (cs : List (Cf α W)) (hc : ∀ c ∈ cs, Fits c) (hcne : cs ≠ [])
    (hlen : cs.length ≤ 2147483647) :
    ∃ st m, readColl f g zeroA zero diag (collText f g (cs.map (readBack r q zero diag)) [])
      (.ofText (collText f g (cs.map (readBack r q zero diag)) [])) 0 = .ok (st, cs.map (readBack r q zero diag), m) := by
  obtain ⟨st, m, hr⟩ := coll_rounds hf hg zeroA zero diag (cs.map (readBack r q zero diag))
    (by
      intro c h
      obtain ⟨c', h1, rfl⟩ := List.mem_map.1 h
      exact readBack_fits r q zero hd (hc c' h1)) (by simpa using hcne) (by simpa using hlen)
  have e : (cs.map (readBack r q zero diag)).map (readBack r q zero diag) = cs.map (readBack r q zero diag) := by
    rw [List.map_map]
    exact List.map_congr_left fun c _ => readBack_twice hf hg zero diag c
  rw [e] at hr
  exact ⟨st, m, hr⟩

/-- **C128** Plotting the file that was combined gives, at each frequency of the grid, the sum of the functions of the fractions read
from the single files: the second time that digits are cut and the second diagonalization change nothing. -/
theorem combine_plot [DecidableEq W] {f : Fmt α} {g : Fmt W} {r : α → α} {q : W → W} (hf : Rounds f r) (hg : Rounds g q) (zeroA : α) (zero : W)
    (diag : List α → List α → List α × List α) (hd : Sized diag) (val : α → ℝ) (valW : W → ℂ) (hz : valW zero = 0)
    (files : List Str) (cs : List (Cf α W)) (hc : ∀ c ∈ cs, Fits c)
    (hl : List.Forall₂ (fun file c => LastIn f g c file) files cs) (hne : files ≠ []) (hlen : files.length ≤ 2147483647)
    (mats : Bool) (hm : ∀ c ∈ cs, c.matsubara = mats) (p : PlotP) (hp : ¬ refused p) (hs : mats = true ∨ p.matsubaras > 0 ∨ Sane p) :
    ∃ file, combine f g zeroA zero diag files = .ok (some file) ∧
      plotCollection f g zeroA zero diag val valW file p false = .ok (some ((grid p mats).map fun x =>
        (x, ((cs.map fun c => green (toCF val valW (readBack r q zero diag c)) (point p mats x)).sum).im,
          ((cs.map fun c => green (toCF val valW (readBack r q zero diag c)) (point p mats x)).sum).re))) ∧
      plotCollection f g zeroA zero diag val valW file p true = .ok (some (cs.flatMap fun c => (grid p mats).map fun x =>
        (x, (green (toCF val valW (readBack r q zero diag c)) (point p mats x)).im,
          (green (toCF val valW (readBack r q zero diag c)) (point p mats x)).re))) := by
  refine ⟨_, combine_spec hf hg zeroA zero diag files cs hc hl hne, ?_⟩
  have hlc : files.length = cs.length := hl.length_eq
  have hcne : cs ≠ [] := by
    rintro rfl
    exact hne (List.eq_nil_of_length_eq_zero hlc)
  obtain ⟨st, m, hr⟩ := combined_read hf hg zeroA zero diag hd cs hc hcne (hlc ▸ hlen)
  have hall : ∀ x ∈ (cs.map (readBack r q zero diag)).map (toCF val valW),
      x.matsubara = mats ∧ (x.weight = 0 ∨ x.intensity.length = x.eigs.length) := by
    intro x hx
    rw [List.map_map] at hx
    obtain ⟨c, h1, rfl⟩ := List.mem_map.1 hx
    obtain ⟨h2, h3⟩ := toCF_ok r q zero hd val valW hz c
    exact ⟨h2.trans (hm c h1), h3⟩
  constructor
  · unfold plotCollection
    rw [if_neg hp, hr]
    simp only [bind, Except.bind, Bool.false_eq_true, if_false]
    obtain ⟨c0, ct, rfl⟩ := List.exists_cons_of_ne_nil hcne
    unfold printAll
    rw [List.map_cons, List.map_cons] at hall ⊢
    rw [plotAll_spec _ _ p mats hall hs]
    simp [bind, Except.bind, pure, Except.pure, Function.comp_def]
  · unfold plotCollection
    rw [if_neg hp, hr]
    simp only [bind, Except.bind, if_true]
    unfold printEach
    have key : ((cs.map (readBack r q zero diag)).map (toCF val valW)).mapM (fun c => ofOption (plot c p [])) =
        .ok (cs.map fun c => (grid p mats).map fun x => (x, green (toCF val valW (readBack r q zero diag c)) (point p mats x))) := by
      apply mapM_last
      rw [List.forall₂_map_left_iff, List.forall₂_map_left_iff, List.forall₂_map_right_iff, List.forall₂_same]
      intro c h
      obtain ⟨h1, h2⟩ := hall _ (List.mem_map_of_mem (List.mem_map_of_mem h))
      rw [plot_spec _ p h2 (by rw [h1]; exact hs), h1]
      rfl
    rw [key]
    simp [bind, Except.bind, pure, Except.pure, List.map_flatten, List.flatMap_def, Function.comp_def]

/-- **C128** The program for one fraction prints the first fraction of its file, with the real part in the second column and the
imaginary part in the third, where the program for collections has them the other way round. -/
theorem single_plot [DecidableEq W] {f : Fmt α} {g : Fmt W} {r : α → α} {q : W → W} (hf : Rounds f r) (hg : Rounds g q) (zeroA : α) (zero : W)
    (diag : List α → List α → List α × List α) (hd : Sized diag) (val : α → ℝ) (valW : W → ℂ) (hz : valW zero = 0) (c : Cf α W)
    (hc : Fits c) (hm : c.matsubara = false) (pre post : Str) (hpre : NoHit "#Avector".toList pre) (wbegin wend wstep delta : ℝ)
    (h1 : 0 < wstep) (h2 : wbegin + wstep ≤ wend) (h3 : 0 < delta) :
    plotSingle f g zeroA zero diag val valW (pre ++ cfText f g c post) wbegin wend wstep delta =
      .ok (some ((List.range ⌊(wend - wbegin) / wstep⌋₊).map fun i : Nat =>
        (wbegin + i * wstep, (green (toCF val valW (readBack r q zero diag c)) ⟨wbegin + i * wstep, delta⟩).re,
          (green (toCF val valW (readBack r q zero diag c)) ⟨wbegin + i * wstep, delta⟩).im))) := by
  unfold plotSingle
  rw [if_neg (by rintro (h | h | h) <;> linarith)]
  unfold Stream.ofText
  rw [cf_rounds hf hg zeroA zero diag c hc _ pre post hpre]
  simp only [bind, Except.bind]
  obtain ⟨h4, h5⟩ := toCF_ok r q zero hd val valW hz c
  rw [plot_spec _ _ h5 (.inr (.inr ⟨h1, by show wstep ≤ wend - wbegin; linarith⟩)), h4, hm]
  simp [grid, point, ofOption, pure, Except.pure, Function.comp_def]

/-! ## What does not hold -/

theorem mixed_order (c d : CF) (p : PlotP) (hc : c.weight = 0 ∨ c.intensity.length = c.eigs.length)
    (hd : d.weight = 0 ∨ d.intensity.length = d.eigs.length) (hcm : c.matsubara = true) (hdm : d.matsubara = false)
    (hp : p.matsubaras = 0) (hs : Sane p) :
    printAll [c, d] p = .ok ((grid p false).map fun x => (x, (green d (point p false x)).im, (green d (point p false x)).re)) ∧
      printAll [d, c] p = throwOut := by
  have e1 : plot c p [] = some [] := by
    rw [plot_spec c p hc (.inl hcm), hcm]
    simp [grid, hp]
  have e2 : plot d p [] = some ((grid p false).map fun x => (x, green d (point p false x))) := by
    rw [plot_spec d p hd (.inr (.inr hs)), hdm]
  have hne : (grid p false).length ≠ 0 := by
    simp only [grid, Bool.false_eq_true, hp, false_or, gt_iff_lt, lt_irrefl, if_false, List.length_map, List.length_range]
    have : 1 ≤ ⌊(p.omega2 - p.omega1) / p.deltaOmega⌋₊ := by
      apply Nat.le_floor
      rw [Nat.cast_one, le_div_iff₀ hs.1, one_mul]
      exact hs.2
    omega
  constructor
  · simp [printAll, plotAll, e1, e2, accumulate, bind, Except.bind, pure, Except.pure, Function.comp_def]
  · simp [printAll, plotAll, e1, e2, accumulate, bind, Except.bind, pure, Except.pure, Function.comp_def, List.length_eq_zero_iff.not.1 hne, throwOut]

/-- **C128** Combining a file for Matsubara frequencies with one for real frequencies is not refused.  When the collection is then
plotted over real frequencies, the outcome depends on the order of the files: the first fraction is silently left out if it is the
one for Matsubara frequencies, and otherwise there is an exception. -/
theorem combine_order_fails [DecidableEq W] {f : Fmt α} {g : Fmt W} {r : α → α} {q : W → W} (hf : Rounds f r) (hg : Rounds g q) (zeroA : α)
    (zero : W) (diag : List α → List α → List α × List α) (hd : Sized diag) (val : α → ℝ) (valW : W → ℂ) (hz : valW zero = 0)
    (c d : Cf α W) (hc : Fits c) (hdf : Fits d) (hcm : c.matsubara = true) (hdm : d.matsubara = false) (fileC fileD : Str)
    (h1 : LastIn f g c fileC) (h2 : LastIn f g d fileD) (p : PlotP) (hp : p.matsubaras = 0) (hpd : 0 < p.delta) (hs : Sane p) :
    (∃ file, combine f g zeroA zero diag [fileC, fileD] = .ok (some file) ∧
      plotCollection f g zeroA zero diag val valW file p false = .ok (some ((grid p false).map fun x =>
        (x, (green (toCF val valW (readBack r q zero diag d)) (point p false x)).im,
          (green (toCF val valW (readBack r q zero diag d)) (point p false x)).re)))) ∧
    (∃ file, combine f g zeroA zero diag [fileD, fileC] = .ok (some file) ∧
      plotCollection f g zeroA zero diag val valW file p false = throwOut) := by
  have hr : ¬ refused p := by
    rintro ⟨h | h | h, -⟩
    · have := hs.1; have := hs.2; linarith
    · have := hs.1; linarith
    · linarith
  obtain ⟨a1, a2⟩ := toCF_ok r q zero hd val valW hz c
  obtain ⟨b1, b2⟩ := toCF_ok r q zero hd val valW hz d
  obtain ⟨k1, k2⟩ := mixed_order _ _ p a2 b2 (a1.trans hcm) (b1.trans hdm) hp hs
  have two : ∀ {x y : Cf α W}, Fits x → Fits y → ∀ z ∈ [x, y], Fits z := by
    intro x y hx hy z hz
    rcases List.mem_cons.1 hz with rfl | hz
    · exact hx
    · rw [List.mem_singleton.1 hz]
      exact hy
  constructor
  · refine ⟨_, combine_spec hf hg zeroA zero diag _ [c, d] (two hc hdf) (.cons h1 (.cons h2 .nil)) (by simp), ?_⟩
    obtain ⟨st, m, e⟩ := combined_read hf hg zeroA zero diag hd [c, d] (two hc hdf) (by simp) (by simp)
    unfold plotCollection
    rw [if_neg hr, e]
    simp only [bind, Except.bind, Bool.false_eq_true, if_false, List.map_cons, List.map_nil]
    rw [k1]
    rfl
  · refine ⟨_, combine_spec hf hg zeroA zero diag _ [d, c] (two hdf hc) (.cons h2 (.cons h1 .nil)) (by simp), ?_⟩
    obtain ⟨st, m, e⟩ := combined_read hf hg zeroA zero diag hd [d, c] (two hdf hc) (by simp) (by simp)
    unfold plotCollection
    rw [if_neg hr, e]
    simp only [bind, Except.bind, Bool.false_eq_true, if_false, List.map_cons, List.map_nil]
    rw [k2]
    rfl

/-! ## Concrete cases -/

/-- Any rounding can be had: numbers are written as what is left of them. -/
theorem rounds_of {f : Fmt α} (hf : f.Lawful) (r : α → α) (hr : ∀ a, r (r a) = r a) : Rounds ⟨fun a => f.text (r a), f.rd, f.parse⟩ r where
  word a := hf.word _
  hash a := hf.hash _
  reads a ws c rest h1 h2 := hf.reads (r a) ws c rest h1 h2
  parses a x := hf.parses _ x
  twice := hr

/-- Numbers of which the last digit is lost. -/
def cut (a : Small) : Small := ⟨a.1 / 10 * 10, le_trans (Nat.div_mul_le_self _ _) a.2⟩

def cutFmt : Fmt Small := ⟨fun a => smallFmt.text (cut a), smallFmt.rd, smallFmt.parse⟩

theorem cutFmt_rounds : Rounds cutFmt cut := rounds_of smallFmt_lawful cut (by
  intro a
  apply Subtype.ext
  show a.1 / 10 * 10 / 10 * 10 = a.1 / 10 * 10
  omega)

def exDiag2 (a _ : List Small) : List Small × List Small := (a.reverse, a)

theorem exDiag2_sized : Sized exDiag2 := fun a b => ⟨by simp [exDiag2], rfl⟩

def exA : Cf Small Small := ⟨[sm 31, sm 47], [sm 15, sm 20], false, sm 52, sm 63, -1, [], []⟩
def exB : Cf Small Small := ⟨[sm 78], [sm 81], false, sm 95, sm 10, 1, [], []⟩
def exM : Cf Small Small := { exB with matsubara := true }

theorem exA_fits : Fits exA := ⟨by decide, by decide, by decide, by decide, by decide⟩
theorem exB_fits : Fits exB := ⟨by decide, by decide, by decide, by decide, by decide⟩
theorem exM_fits : Fits exM := ⟨by decide, by decide, by decide, by decide, by decide⟩

/-- A file with a header and two fractions, of which the last is `exA`, and one with `exB` only. -/
def fileA : Str := ("run 7\n".toList ++ cfText cutFmt cutFmt exB []) ++ cfText cutFmt cutFmt exA "end\n".toList
def fileB (c : Cf Small Small) : Str := [] ++ cfText cutFmt cutFmt c []

theorem fileA_last : LastIn cutFmt cutFmt exA fileA := ⟨_, _, rfl, .inr (by decide), by decide⟩
theorem fileB_last (c : Cf Small Small) : LastIn cutFmt cutFmt c (fileB c) := ⟨_, _, rfl, .inl rfl, by decide⟩

noncomputable def smallVal (a : Small) : ℝ := a.1
noncomputable def smallValW (a : Small) : ℂ := a.1

theorem smallValW_zero : smallValW (sm 0) = 0 := by simp [smallValW, sm]

noncomputable def exP : PlotP := ⟨-1, 1, 1 / 2, 1 / 10, 0, 0⟩

theorem exP_sane : Sane exP := by constructor <;> norm_num [exP]
theorem exP_taken : ¬ refused exP := by
  rintro ⟨h | h | h, -⟩ <;> norm_num [exP] at h

example : ∃ file, combine cutFmt cutFmt (sm 0) (sm 0) exDiag2 [fileA, fileB exB] = .ok (some file) ∧
    ∃ rows, plotCollection cutFmt cutFmt (sm 0) (sm 0) exDiag2 smallVal smallValW file exP false = .ok (some rows) := by
  obtain ⟨file, h1, h2, -⟩ := combine_plot cutFmt_rounds cutFmt_rounds (sm 0) (sm 0) exDiag2 exDiag2_sized smallVal smallValW smallValW_zero
    [fileA, fileB exB] [exA, exB] (by simp [exA_fits, exB_fits]) (.cons fileA_last (.cons (fileB_last _) .nil)) (by simp) (by simp) false
    (by simp [exA, exB]) exP exP_taken (.inr (.inr exP_sane))
  exact ⟨file, h1, _, h2⟩

example : ∃ rows, plotSingle cutFmt cutFmt (sm 0) (sm 0) exDiag2 smallVal smallValW ("run 7\n".toList ++ cfText cutFmt cutFmt exA []) (-1) 1
    (1 / 2) (1 / 10) = .ok (some rows) :=
  ⟨_, single_plot cutFmt_rounds cutFmt_rounds (sm 0) (sm 0) exDiag2 exDiag2_sized smallVal smallValW smallValW_zero exA exA_fits rfl
    "run 7\n".toList [] ⟨.inr (by decide), by decide⟩ (-1) 1 (1 / 2) (1 / 10) (by norm_num) (by norm_num) (by norm_num)⟩

example := combine_order_fails cutFmt_rounds cutFmt_rounds (sm 0) (sm 0) exDiag2 exDiag2_sized smallVal smallValW smallValW_zero
  exM exA exM_fits exA_fits rfl rfl (fileB exM) fileA (fileB_last _) fileA_last exP rfl (by norm_num [exP]) exP_sane

end Verif.Whole.Combine
