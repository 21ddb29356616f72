/-!
# Model of `src/PsiBase64.h` (and the alphabet in `src/PsiBase64.cpp`)

Bytes are `UInt8`, text is a list of characters.  `unsigned char` arithmetic is done
as in C: operands are promoted (here to `Nat`) and the result is truncated to 8 bits
when stored (`UInt8.ofNat`).
-/

namespace Verif.Base64

/-- `PsiBase64::base64Chars_`, src/PsiBase64.cpp:41-43. -/
def alphabet : List Char :=
  "ABCDEFGHIJKLMNOPQRSTUVWXYZabcdefghijklmnopqrstuvwxyz0123456789+/".toList

/-- The four 6-bit groups computed from `charArray3`, src/PsiBase64.h:97-100 (and again
111-114). -/
def split3 (a b c : UInt8) : List UInt8 :=
  [ UInt8.ofNat ((a.toNat &&& 0xfc) >>> 2),
    UInt8.ofNat (((a.toNat &&& 0x03) <<< 4) + ((b.toNat &&& 0xf0) >>> 4)),
    UInt8.ofNat (((b.toNat &&& 0x0f) <<< 2) + ((c.toNat &&& 0xc0) >>> 6)),
    UInt8.ofNat (c.toNat &&& 0x3f) ]

/-- `buffer_ += base64Chars_[charArray4[i]]` for each listed group,
src/PsiBase64.h:102-103 and 116-117.  Indexing outside of the alphabet would be
undefined behaviour in C++ and is `none` here. -/
def emit : List UInt8 → Option (List Char)
  | [] => some []
  | g :: gs =>
    match alphabet[g.toNat]?, emit gs with
    | some ch, some rest => some (ch :: rest)
    | _, _ => none

/-- Tail of `encode_` after the loop, src/PsiBase64.h:108-121.  `pend` is the used part
`charArray3[0..i)`, so `i = pend.length`; the padding loop fills the rest with zero. -/
def encodeTail (pend : List UInt8) (buffer : List Char) : Option (List Char) :=
  match pend with
  | [] => some buffer
  | _ =>
    let i := pend.length
    let a3 := pend ++ List.replicate (3 - i) 0
    match a3 with
    | [a, b, c] =>
      match emit ((split3 a b c).take (i + 1)) with
      | some t => some (buffer ++ t ++ List.replicate (3 - i) '=')
      | none => none
    | _ => none

/-- The `while (inLen--)` loop of `encode_`, src/PsiBase64.h:94-106.  `pend` is
`charArray3[0..i)`. -/
def encodeLoop : List UInt8 → List UInt8 → List Char → Option (List Char)
  | [], pend, buffer => encodeTail pend buffer
  | x :: xs, pend, buffer =>
    match pend ++ [x] with
    | [a, b, c] =>
      match emit (split3 a b c) with
      | some t => encodeLoop xs [] (buffer ++ t)
      | none => none
    | p => encodeLoop xs p buffer

/-- `Encode::encode_`, src/PsiBase64.h:85-123. -/
def encode (bytes : List UInt8) : Option (List Char) := encodeLoop bytes [] []

/-- `Decode::isBase64`, src/PsiBase64.h:179-182; `isalnum` in the "C" locale. -/
def isBase64 (c : Char) : Bool := c.isAlphanum || c == '+' || c == '/'

/-- `charArray4[i] = base64Chars_.find(charArray4[i])`, src/PsiBase64.h:149-150: position
in the alphabet, or `npos` truncated to `unsigned char`, i.e. 255. -/
def find (c : Char) : UInt8 :=
  match alphabet.idxOf? c with
  | some k => UInt8.ofNat k
  | none => 255

/-- The three bytes computed from `charArray4`, src/PsiBase64.h:153-154 (and 168-170). -/
def join4 (a b c d : UInt8) : List UInt8 :=
  [ UInt8.ofNat ((a.toNat <<< 2) + ((b.toNat &&& 0x30) >>> 4)),
    UInt8.ofNat (((b.toNat &&& 0xf) <<< 4) + ((c.toNat &&& 0x3c) >>> 2)),
    UInt8.ofNat (((c.toNat &&& 0x3) <<< 6) + d.toNat) ]

/-- Tail of the `Decode` constructor, src/PsiBase64.h:161-173.  `pend` is
`charArray4[0..i)`; the rest is set to 0 before the table lookup. -/
def decodeTail (pend : List Char) (buffer : List UInt8) : List UInt8 :=
  match pend with
  | [] => buffer
  | _ =>
    let i := pend.length
    let a4 := (pend ++ List.replicate (4 - i) (Char.ofNat 0)).map find
    match a4 with
    | [a, b, c, d] => buffer ++ (join4 a b c d).take (i - 1)
    | _ => buffer

/-- The `while` loop of the `Decode` constructor, src/PsiBase64.h:143-159. -/
def decodeLoop : List Char → List Char → List UInt8 → List UInt8
  | [], pend, buffer => decodeTail pend buffer
  | x :: xs, pend, buffer =>
    if x != '=' && isBase64 x then
      match pend ++ [x] with
      | [a, b, c, d] => decodeLoop xs [] (buffer ++ join4 (find a) (find b) (find c) (find d))
      | p => decodeLoop xs p buffer
    else decodeTail pend buffer

/-- `Decode::Decode`, src/PsiBase64.h:132-175. -/
def decode (text : List Char) : List UInt8 := decodeLoop text [] []

end Verif.Base64
