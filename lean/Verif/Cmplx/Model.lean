import Verif.StrUtil.Model
import Verif.Util.Out
import Mathlib.Data.Rat.Defs
import Mathlib.Algebra.Field.Rat

/-!
# Model of the readers of complex numbers

`CpmlxOrReal` (src/CmplxOrReal.h), `AinurComplex::toComplex` (src/Ainur/AinurComplex.hh), `stringToComplexOrReal`
(src/InputNg.h) and `stringToComplex` (src/Complex.h).  Floating point numbers are rational numbers: nothing is rounded,
nothing overflows.  A complex number is the pair of its real and imaginary parts.
-/

namespace Verif.Cmplx

open Verif.StrUtil Verif.Str

abbrev Str := List Char

/-! ## The C library -/

/-- A sign, if there is one: whether it is minus, and the rest. -/
def takeSign : Str → Bool × Str
  | '-' :: s => (true, s)
  | '+' :: s => (false, s)
  | s => (false, s)

/-- The value of digits. -/
def digitsVal (ds : Str) : Nat := Nat.ofDigitChars 10 ds 0

/-- The digits after a period, and the rest. -/
def takeFrac : Str → Str × Str
  | '.' :: t => (t.takeWhile isDigit, t.dropWhile isDigit)
  | s => ([], s)

/-- The exponent, if it has digits: the power of ten, and the rest. -/
def takeExpo : Str → ℚ × Str
  | c :: t =>
    if c = 'e' ∨ c = 'E' then
      let (neg, u) := takeSign t
      let d := u.takeWhile isDigit
      if d = [] then (1, c :: t)
      else (if neg then 1 / 10 ^ digitsVal d else 10 ^ digitsVal d, u.dropWhile isDigit)
    else (1, c :: t)
  | [] => (1, [])

/-- `std::strtod` on text without white space (C standard; no hexadecimal numbers, no `inf` or `nan`): the value of the
longest number the text begins with, and the rest; `none` if it does not begin with a number. -/
def strtod (s : Str) : Option (ℚ × Str) :=
  let (neg, s) := takeSign s
  let whole := s.takeWhile isDigit
  let (frac, s) := takeFrac (s.dropWhile isDigit)
  if whole = [] ∧ frac = [] then none
  else
    let m : ℚ := digitsVal (whole ++ frac) / 10 ^ frac.length
    let (p, s) := takeExpo s
    some (if neg then -(m * p) else m * p, s)

/-- `std::atof`. -/
def stdAtof (s : Str) : ℚ :=
  match strtod s with
  | some (x, _) => x
  | none => 0

/-- `PsimagLite::atof`, src/PsimagLite.cpp:110-117. -/
def atof (s : Str) : Out ℚ := if isAfloat s then .ok (stdAtof s) else throwOut

/-! ## `CpmlxOrReal` -/

/-- The loop of the constructor, src/CmplxOrReal.h:24-35: `buffer` and `isImag_`. -/
def corLoop : Str → Str → Bool → Out (Str × Bool)
  | [], buffer, isImag => .ok (buffer, isImag)
  | c :: t, buffer, isImag =>
    if c = 'i' then (if isImag then throwOut else corLoop t buffer true)
    else corLoop t (buffer ++ [c]) isImag

/-- `CpmlxOrReal<RealType, 1>` and its `value`, src/CmplxOrReal.h:18-46. -/
def corComplex (t : Str) : Out (ℚ × ℚ) := do
  let (buffer, isImag) ← corLoop t [] false
  let value ← (if isImag ∧ buffer = [] then .ok 1 else atof buffer)
  return if isImag then (0, value) else (value, 0)

/-- `CpmlxOrReal<RealType, 0>` and its `value`, src/CmplxOrReal.h:59-69. -/
def corReal (t : Str) : Out ℚ := if 'i' ∈ t then throwOut else atof t

/-! ## `AinurComplex` -/

/-- The loop of `toComplex`, src/Ainur/AinurComplex.hh:69-84: `buffer`, `flag` and `real1`. -/
def ainurLoop : Str → Str → Bool → ℚ → Out (Str × Bool × ℚ)
  | [], buffer, flag, real1 => .ok (buffer, flag, real1)
  | c :: t, buffer, flag, real1 =>
    if c = 'i' ∧ flag then throwOut
    else if c = 'i' then do
      let r ← (if buffer = [] then .ok 0 else atof buffer)
      ainurLoop t [] true r
    else ainurLoop t (buffer ++ [c]) flag real1

/-- `toComplex`, src/Ainur/AinurComplex.hh:58-89.  (The name `atof` in it is `PsimagLite::atof`.) -/
def toComplex (str : Str) : Out (ℚ × ℚ) :=
  if str = ['i'] then .ok (0, 1)
  else if str = ['-', 'i'] then .ok (0, -1)
  else do
    let (buffer, flag, real1) ← ainurLoop str [] false 0
    let x ← atof buffer
    return if flag then (real1, x) else (x, 0)

/-! ## `InputNg` -/

/-- `stringToReal`, src/InputNg.h:1041-1056.  (The name `atof` in it is `PsimagLite::atof`.) -/
def stringToReal (s : Str) : Out ℚ :=
  if s.all fun c => isDigit c || c == '.' || c == '-' || c == '+' || c == 'e' || c == 'E' then atof s else throwOut

/-- `stringToComplexOrReal` for complex numbers, src/InputNg.h:987-1019.  The first loop leaves `start` at the comma, or
at the last character if there is none (at 0 if the text has one character). -/
def inputComplex (s : Str) : Out (ℚ × ℚ) :=
  match s with
  | '(' :: t => do
    let first := t.takeWhile (· ≠ ',')
    let r ← stringToReal first
    let rest := if ',' ∈ t then (t.dropWhile (· ≠ ',')).drop 1 else []
    let img ← stringToReal (rest.takeWhile (· ≠ ')'))
    return (r, img)
  | s => do
    let r ← stringToReal s
    return (r, 0)

/-! ## `stringToComplex` -/

/-- A `std::stringstream` being read. -/
structure Stream where
  rest : Str
  eof : Bool
  fail : Bool

/-- The characters that `operator>>(double&)` takes (libstdc++, `num_get::_M_extract_float`), after the sign: those taken
before, whether there was a digit, a period, an exponent; the characters taken and the rest. -/
def accLoop : Str → Bool → Bool → Bool → Str × Str
  | [], _, _, _ => ([], [])
  | c :: t, digit, dot, sci =>
    if isDigit c then ((c :: (accLoop t true dot sci).1), (accLoop t true dot sci).2)
    else if c = '.' ∧ dot = false ∧ sci = false then
      (c :: (accLoop t digit true sci).1, (accLoop t digit true sci).2)
    else if (c = 'e' ∨ c = 'E') ∧ sci = false ∧ digit = true then
      match t with
      | [] => ([c], [])
      | s :: u =>
        if s = '+' ∨ s = '-' then (c :: s :: (accLoop u digit dot true).1, (accLoop u digit dot true).2)
        else (c :: (accLoop (s :: u) digit dot true).1, (accLoop (s :: u) digit dot true).2)
    else ([], c :: t)

/-- All the characters taken, and the rest. -/
def accumulate : Str → Str × Str
  | '-' :: s => ('-' :: (accLoop s false false false).1, (accLoop s false false false).2)
  | '+' :: s => ('+' :: (accLoop s false false false).1, (accLoop s false false false).2)
  | s => accLoop s false false false

/-- White space. -/
def isWs (c : Char) : Bool := c == ' ' || c == '\t' || c == '\n' || c == '\r' || c == '\x0b' || c == '\x0c'

/-- `ss >> x` for a `double` that holds `old` (C++ standard, `istream::operator>>`): if the stream is not good, or has
only white space, then it fails and `x` is kept; if the characters taken are not a number, then `x` is 0. -/
def getDouble (old : ℚ) (s : Stream) : ℚ × Stream :=
  if s.eof ∨ s.fail then (old, { s with fail := true })
  else
    match s.rest.dropWhile isWs with
    | [] => (old, ⟨[], true, true⟩)
    | c :: t =>
      let (taken, rest) := accumulate (c :: t)
      match strtod taken with
      | some (x, []) => (x, ⟨rest, rest = [], false⟩)
      | _ => (0, ⟨rest, rest = [], true⟩)

/-- `ss >> dummy` for a `char`. -/
def getChar (s : Stream) : Stream :=
  if s.eof ∨ s.fail then { s with fail := true }
  else
    match s.rest.dropWhile isWs with
    | [] => ⟨[], true, true⟩
    | _ :: t => ⟨t, false, false⟩

/-- `str[str.find('+') + 1]`: without a `+` this is the first character (`npos + 1` is 0), and after the last one it is
the terminating null character. -/
def afterPlus (str : Str) : Char :=
  match str.dropWhile (· ≠ '+') with
  | [] => str.headD '\x00'
  | _ :: t => t.headD '\x00'

/-- `stringToComplex`, src/Complex.h:115-142.  (The text is not empty where its last character is asked for.) -/
def stringToComplex (str : Str) : ℚ × ℚ :=
  let ss : Stream := ⟨str, false, false⟩
  if '+' ∈ str ∨ '-' ∈ str then
    let (real, ss) := getDouble 0 ss
    let ss := getChar ss
    let (imag, _) := getDouble 0 ss
    let imag := if str.getLast? ≠ some 'i' then 0 else imag
    let imag := if afterPlus str = '-' then -imag else imag
    (real, imag)
  else if 'i' ∈ str then
    let (imag, _) := getDouble 0 ss
    let imag := if str.getLast? ≠ some 'i' then 0 else imag
    (0, imag)
  else
    ((getDouble 0 ss).1, 0)

/-- `setInputRealOrComplex` for real numbers, src/AST/PlusMinusMultiplyDivide.h:120-127. -/
def astReal (code : Str) : Out ℚ := if 'i' ∈ code then throwOut else atof code

end Verif.Cmplx
