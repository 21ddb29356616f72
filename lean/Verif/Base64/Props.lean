import Verif.Base64.Lemmas

/-!
# C01: Base64 round trip

`encode` and `decode` are the models of `PsiBase64::Encode` and `PsiBase64::Decode`.
-/

namespace Verif.Base64

/-- The number written in the given base by a list of digits, most significant first. -/
def numberOf (base : Nat) (digits : List Nat) : Nat :=
  digits.foldl (fun n d => n * base + d) 0

/-- C01: every byte string can be encoded (no out-of-range table access) and decoding the
text gives the bytes back. -/
theorem base64_roundtrip (bytes : List UInt8) :
    ∃ text, encode bytes = some text ∧ decode text = bytes := by
  obtain ⟨body, h1, -, -, -, h5⟩ := enc_main bytes []
  refine ⟨_, h1, ?_⟩
  have := h5 (List.replicate ((3 - bytes.length % 3) % 3) '=') [] (by
    cases (3 - bytes.length % 3) % 3 with
    | zero => simp
    | succ n => exact Or.inr ⟨_, List.replicate_succ⟩)
  simpa [decode] using this

example : encode [77, 97, 110, 77] = some "TWFuTQ==".toList ∧
    decode "TWFuTQ==".toList = [77, 97, 110, 77] := by decide +kernel

/-- C01: shape of the encoded text.  It is a body of alphabet characters followed by `pad`
equals signs, its length is `4 * ceil(n/3)`, and `pad` completes `n` to a multiple of 3. -/
theorem base64_shape (bytes : List UInt8) (text : List Char) (h : encode bytes = some text) :
    ∃ body pad, text = body ++ List.replicate pad '=' ∧ pad ≤ 2 ∧
      (bytes.length + pad) % 3 = 0 ∧ text.length = 4 * ((bytes.length + 2) / 3) ∧
      ∀ c ∈ body, c ∈ alphabet := by
  obtain ⟨body, h1, h2, h3, -, -⟩ := enc_main bytes []
  have h1' : encode bytes = some (body ++ List.replicate ((3 - bytes.length % 3) % 3) '=') := by
    simpa [encode] using h1
  rw [h1'] at h
  cases h
  exact ⟨body, _, rfl, by omega, by omega, by simpa using h2, h3⟩

example : (encode [1, 2]).map List.length = some 4 := by decide +kernel

/-- C01: the encoding is the RFC 4648 one: read in base 64 (position in the alphabet) the
body is the byte string read in base 256, followed by two zero bits per equals sign. -/
theorem base64_value (bytes : List UInt8) (body : List Char) (pad : Nat)
    (hb : ∀ c ∈ body, c ∈ alphabet)
    (h : encode bytes = some (body ++ List.replicate pad '=')) :
    numberOf 64 (body.map fun c => alphabet.idxOf c) =
      numberOf 256 (bytes.map UInt8.toNat) * 4 ^ pad := by
  obtain ⟨body', h1, h2, h3, h4, -⟩ := enc_main bytes []
  have h1' : encode bytes = some (body' ++ List.replicate ((3 - bytes.length % 3) % 3) '=') := by
    simpa [encode] using h1
  have hne : '=' ∉ alphabet := by decide +kernel
  rw [h1'] at h
  have he := Option.some.inj h
  have hf : ∀ (l : List Char) (n : Nat), (∀ c ∈ l, c ∈ alphabet) →
      (l ++ List.replicate n '=').filter (· != '=') = l := by
    intro l n hl
    have e1 : l.filter (· != '=') = l := by
      rw [List.filter_eq_self]
      intro a ha
      have : a ≠ '=' := fun hh => hne (hh ▸ hl a ha)
      simpa using this
    have e2 : (List.replicate n '=').filter (· != '=') = [] := by
      rw [List.filter_eq_nil_iff]
      intro a ha
      simp [List.eq_of_mem_replicate ha]
    rw [List.filter_append, e1, e2, List.append_nil]
  have hbody : body' = body := by
    have := congrArg (List.filter (· != '=')) he
    rwa [hf _ _ h3, hf _ _ hb] at this
  subst hbody
  have hpad : (3 - bytes.length % 3) % 3 = pad := by
    have := congrArg List.length he
    simpa using this
  rw [← hpad]
  exact h4 0

example : encode [255, 1] = some ("/wE".toList ++ List.replicate 1 '=') ∧
    numberOf 64 ("/wE".toList.map fun c => alphabet.idxOf c) = (255 * 256 + 1) * 4 := by
  decide +kernel

/-- C01: distinct byte strings have distinct encodings. -/
theorem base64_encode_injective (s t : List UInt8) (h : encode s = encode t) : s = t := by
  obtain ⟨u, hu, hu'⟩ := base64_roundtrip s
  obtain ⟨v, hv, hv'⟩ := base64_roundtrip t
  rw [h, hv] at hu
  cases hu
  rw [← hu', hv']

example : encode [0] ≠ encode [0, 0] := by decide +kernel

/-- C01: on arbitrary text the decoder looks only at the leading run of alphabet
characters: whatever follows the first other character is ignored. -/
theorem base64_decode_ignores_tail (body junk : List Char) (c : Char)
    (hc : c = '=' ∨ isBase64 c = false) : decode (body ++ c :: junk) = decode body := by
  have key : ∀ (l pend : List Char) (d : List UInt8),
      decodeLoop (l ++ c :: junk) pend d = decodeLoop l pend d := by
    intro l
    induction l with
    | nil =>
      intro pend d
      rcases hc with rfl | hc
      · simp [decodeLoop]
      · simp [decodeLoop, hc]
    | cons x xs ih =>
      intro pend d
      simp only [List.cons_append, decodeLoop]
      split
      · split <;> simp [ih]
      · rfl
  exact key body [] []

example : decode ("TWFu".toList ++ '*' :: "TWFu".toList) = [77, 97, 110] := by decide +kernel

end Verif.Base64
