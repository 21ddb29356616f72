import Verif.Canonical.ModelReplace
import Verif.StrUtil.Props

/-!
# C146: replacements in expressions
-/

namespace Verif.Canonical

open Verif.Str Verif.StrUtil

/-- The first occurrence of the pattern and what is before and after it. -/
structure First (pat s a rest : List Char) : Prop where
  parts : s = a ++ pat ++ rest
  first : ∀ b c, s = b ++ pat ++ c → a.length ≤ b.length

/-- **C146** One replacement: the first occurrence of the label becomes the text; without one nothing changes. -/
theorem replaceOne_spec (label text s : List Char) :
    (¬ label <:+: s ∧ replaceOne label text s = some (false, s)) ∨
    ∃ a rest, First label s a rest ∧ replaceOne label text s = some (true, a ++ text ++ rest) := by
  unfold replaceOne
  cases h : find s label 0 with
  | none =>
    left
    refine ⟨?_, rfl⟩
    rintro ⟨a, b, rfl⟩
    refine find_none h a.length (by omega) (by simp) ?_
    rw [List.append_assoc, List.drop_left]
    exact List.prefix_append _ _
  | some x =>
    obtain ⟨-, h2, ⟨r, hr⟩, h4⟩ := find_some h
    right
    have hs : s = s.take x ++ label ++ r := by rw [List.append_assoc, hr, List.take_append_drop]
    have hl : (s.take x).length = x := by simp; omega
    have hlen : s.length = x + label.length + r.length := by
      conv_lhs => rw [hs]
      simp only [List.length_append, hl]
    refine ⟨s.take x, r, ⟨hs, ?_⟩, ?_⟩
    · intro b c hbc
      rw [hl]
      by_contra hlt
      refine h4 b.length (by omega) (by omega) ?_
      rw [hbc, List.append_assoc, List.drop_left]
      exact List.prefix_append _ _
    · have h3 : substr s (x + label.length) (s.length - x - label.length) = some r := by
        unfold substr
        rw [if_pos (by omega), ← List.drop_drop, ← hr, List.drop_left, List.take_of_length_le (by omega)]
      simp only [h3, bind, Option.bind_some]
      by_cases h0 : x = 0
      · rw [if_pos h0, h0]; rfl
      · rw [if_neg h0]; simp [substr]

/-- A beginning in which no occurrence of the pattern begins, whatever follows. -/
def Clean (pat P : List Char) : Prop := ∀ rest b c, P ++ rest = b ++ pat ++ c → P.length ≤ b.length

theorem clean_nil (pat : List Char) : Clean pat [] := fun _ _ _ _ => by simp

theorem clean_step {pat text P a rest : List Char} (hp : pat ≠ []) (ht : text ≠ []) (hd : ∀ x ∈ pat, x ∉ text) (hP : Clean pat P)
    (hf : First pat (a ++ pat ++ rest) a rest) : Clean pat (P ++ a ++ text) := by
  intro r b c h
  by_contra hlt
  have hpl : 0 < pat.length := List.length_pos_iff.2 hp
  have htl : 0 < text.length := List.length_pos_iff.2 ht
  simp only [List.length_append] at hlt
  by_cases hin : b.length + pat.length ≤ P.length + a.length
  · -- the occurrence is before the text
    have hpre : b ++ pat <+: P ++ a := by
      refine List.prefix_of_prefix_length_le (l₃ := P ++ a ++ text ++ r) ?_ ?_ (by simpa using hin)
      · rw [h]; exact List.prefix_append _ _
      · rw [List.append_assoc (P ++ a)]; exact List.prefix_append _ _
    obtain ⟨w, hw⟩ := hpre
    have e1 : P ++ (a ++ pat ++ rest) = b ++ pat ++ (w ++ (pat ++ rest)) := by
      rw [← List.append_assoc (b ++ pat), hw]
      simp only [List.append_assoc]
    have hb := hP _ _ _ e1
    obtain ⟨b', rfl⟩ : ∃ b', b = P ++ b' := by
      have : P <+: b := by
        refine List.prefix_of_prefix_length_le (l₃ := P ++ (a ++ pat ++ rest)) (List.prefix_append _ _) ?_ hb
        rw [e1, List.append_assoc]
        exact List.prefix_append _ _
      obtain ⟨b', rfl⟩ := this
      exact ⟨b', rfl⟩
    have e2 : a ++ pat ++ rest = b' ++ pat ++ (w ++ (pat ++ rest)) := by
      have := e1
      simp only [List.append_assoc] at this ⊢
      exact List.append_cancel_left this
    have := hf.first _ _ e2
    simp only [List.length_append] at hin
    omega
  · -- a character of the text would be one of the pattern
    obtain ⟨k, hk⟩ : ∃ k, k = max b.length (P.length + a.length) := ⟨_, rfl⟩
    have hk1 : b.length ≤ k := by omega
    have hk2 : k < b.length + pat.length := by omega
    have hk3 : P.length + a.length ≤ k := by omega
    have hk4 : k < P.length + a.length + text.length := by omega
    have g1 : (b ++ pat ++ c)[k]? = some (pat[k - b.length]'(by omega)) := by
      rw [List.append_assoc, List.getElem?_append_right hk1, List.getElem?_append_left (by omega), List.getElem?_eq_getElem]
    have g2 : (P ++ a ++ text ++ r)[k]? = some (text[k - (P.length + a.length)]'(by omega)) := by
      rw [List.append_assoc (P ++ a), List.getElem?_append_right (by simpa using hk3), List.getElem?_append_left (by simp; omega),
        List.getElem?_eq_getElem (by simp; omega)]
      simp
    rw [h, g1] at g2
    have := Option.some.inj g2
    refine hd _ (List.getElem_mem (l := pat) (n := k - b.length) (by omega)) ?_
    rw [this]
    exact List.getElem_mem _

theorem first_shift {pat P s a rest : List Char} (hP : Clean pat P) (h : First pat (P ++ s) a rest) :
    ∃ a', a = P ++ a' ∧ First pat s a' rest := by
  have hb := hP s a rest h.parts
  have : P <+: a := by
    refine List.prefix_of_prefix_length_le (l₃ := P ++ s) (List.prefix_append _ _) ?_ hb
    rw [h.parts, List.append_assoc]
    exact List.prefix_append _ _
  obtain ⟨a', rfl⟩ := this
  refine ⟨a', rfl, ?_, ?_⟩
  · have := h.parts
    simp only [List.append_assoc] at this ⊢
    exact List.append_cancel_left this
  · intro b c e
    have := h.first (P ++ b) c (by rw [e]; simp only [List.append_assoc])
    simp only [List.length_append] at this
    omega

theorem turns_spec {pat text : List Char} (hp : pat ≠ []) (ht : text ≠ []) (hd : ∀ x ∈ pat, x ∉ text) : ∀ (fuel : Nat) (P s : List Char)
    (flag : Bool), s.length < fuel → Clean pat P → ∃ t, replaceTurns pat text fuel flag (P ++ s) = some (flag || decide (pat <:+: s), P ++ t) ∧
      Replaced pat text s t := by
  intro fuel
  induction fuel with
  | zero => intro P s flag h; omega
  | succ fuel ih =>
    intro P s flag hlen hP
    rw [replaceTurns]
    rcases replaceOne_spec pat text (P ++ s) with ⟨h1, h2⟩ | ⟨a, rest, h1, h2⟩
    · have hs : ¬ pat <:+: s := fun h => h1 (h.trans ⟨P, [], by simp⟩)
      refine ⟨s, ?_, .done s hs⟩
      simp only [h2, bind, Option.bind_some]
      simp [hs]
    · obtain ⟨a', rfl, h3⟩ := first_shift hP h1
      have hs : pat <:+: s := ⟨a', rest, h3.parts.symm⟩
      have hpl : 0 < pat.length := List.length_pos_iff.2 hp
      have hl : s.length = a'.length + pat.length + rest.length := by
        conv_lhs => rw [h3.parts]
        simp only [List.length_append]
      have hf : First pat (a' ++ pat ++ rest) a' rest := ⟨rfl, fun b c e => h3.first b c (h3.parts.trans e)⟩
      obtain ⟨t, t1, t2⟩ := ih (P ++ a' ++ text) rest (flag || true) (by omega) (clean_step hp ht hd hP hf)
      refine ⟨a' ++ text ++ t, ?_, ?_⟩
      · simp only [h2, bind, Option.bind_some, if_true]
        rw [t1]
        simp [hs, List.append_assoc]
      · rw [h3.parts]
        exact .step a' rest t hf.first t2

/-- **C146** If the label and the text have no character in common, all occurrences are replaced, from left to right, and the flag says
whether there was one: the loop is over after at most as many turns as there are characters. -/
theorem replaceEvery_spec (label text s : List Char) (hl : label ≠ []) (ht : text ≠ []) (hd : ∀ x ∈ label, x ∉ text) (fuel : Nat)
    (hf : s.length < fuel) :
    ∃ t, replaceEvery label text fuel s = some (decide (label <:+: s), t) ∧ Replaced label text s t ∧
      StrUtil.replaceAll s label text = some t := by
  obtain ⟨t, h1, h2⟩ := turns_spec hl ht hd fuel [] s false hf (clean_nil label)
  obtain ⟨u, h3, h4⟩ := StrUtil.replaceAll_spec s label text hl
  refine ⟨t, by simpa [replaceEvery] using h1, h2, ?_⟩
  rw [h3, Replaced.unique hl h2 h4]

/-- **C146** (finding) If the label occurs in the text, as also the empty one does, a string with the label is changed for ever. -/
theorem replaceEvery_fails (label text : List Char) (h : label <:+: text) : ∀ (fuel : Nat) (s : List Char), label <:+: s →
    replaceEvery label text fuel s = none := by
  have key : ∀ (fuel : Nat) (s : List Char) (flag : Bool), label <:+: s → replaceTurns label text fuel flag s = none := by
    intro fuel
    induction fuel with
    | zero => intros; rfl
    | succ fuel ih =>
      intro s flag hs
      rw [replaceTurns]
      rcases replaceOne_spec label text s with ⟨h1, -⟩ | ⟨a, rest, -, h2⟩
      · exact absurd hs h1
      · simp only [h2, bind, Option.bind_some, if_true]
        exact ih _ _ (h.trans ⟨a, rest, rfl⟩)
  exact fun fuel s hs => key fuel s false hs

/-- **C146** (finding) What is looked for may come into being by a replacement, and is then replaced too: here by an empty text, or a text
that shares a character with the label. -/
theorem replaceEvery_again_fails :
    replaceEvery "ab".toList [] 9 "aabb".toList = some (true, []) ∧ StrUtil.replaceAll "aabb".toList "ab".toList [] = some "ab".toList ∧
    replaceEvery "ab".toList "a".toList 9 "abb".toList = some (true, "a".toList) ∧
    StrUtil.replaceAll "abb".toList "ab".toList "a".toList = some "ab".toList := by decide +kernel

/-- A label and a number. -/
example : replaceEvery "%t".toList "25".toList 20 "x+%t*%t".toList = some (true, "x+25*25".toList) ∧
    "%t".toList ≠ [] ∧ ∀ x ∈ "%t".toList, x ∉ "25".toList := by decide +kernel

/-- A label in its own text. -/
example : "e".toList <:+: "1e+20".toList ∧ "e".toList <:+: "3*e".toList := ⟨⟨['1'], "+20".toList, rfl⟩, ⟨"3*".toList, [], rfl⟩⟩

end Verif.Canonical
