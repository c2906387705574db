import Verif.Model.VectorText
import Verif.Model.Ieee
/-!
# Model of `/repo/src/encode_vector.cpp` and `/repo/src/decode_vector.cpp` for the types `float32` and `float64`

Numbers are pairs of a sign and an absolute value, so that there are two zeros. Other than in `Model/Ieee.lean` the range of the exponents is modelled.
-/
namespace RK
open Ieee

/-- An element of a vector of floating point numbers. -/
inductive FloatValue
  | finite (neg : Bool) (mag : ℝ)
  | infinity (neg : Bool)
  | nan (neg : Bool)

/-- A binary floating point type: the number of bits, the exponent of the smallest normal number, the exponent of the smallest power of two that is too
large, and `numeric_limits<T>::digits10`. -/
structure FloatType where
  bits : Nat
  emin : Int
  emax : Int
  digits10 : Nat

/-- `float`. -/
def float32 : FloatType := ⟨24, -126, 128, 6⟩

/-- `double`. -/
def float64 : FloatType := ⟨53, -1022, 1024, 15⟩

/-- `long double` of the x87. -/
def longDouble : FloatType := ⟨64, -16382, 16384, 18⟩

/-- The distance of neighbouring subnormal numbers. -/
noncomputable def FloatType.tiny (T : FloatType) : ℝ := 2 ^ (T.emin + 1 - T.bits)

/-- Rounding of a number that is not negative, to nearest and to the even one of two; subnormal numbers have a fixed distance. -/
noncomputable def FloatType.round (T : FloatType) (x : ℝ) : ℝ :=
  if x < 2 ^ T.emin then roundEven (x / T.tiny) * T.tiny else rnd T.bits x

/-! ### Printing -/

/-- The digits of a positive number with `p` significant digits as one integer, and the exponent of the first digit: correctly rounded as in glibc. -/
noncomputable def sigDigits (p : Nat) (m : ℝ) : Nat × Int :=
  let e := Int.log 10 m
  let d := (roundEven (m / 10 ^ (e + 1 - p))).toNat
  if d = 10 ^ p then (10 ^ (p - 1), e + 1) else (d, e)

/-- Zeros at the end are omitted. -/
def stripZeros (s : Text) : Text := (s.reverse.dropWhile (· = '0')).reverse

/-- Integer part and fraction; without fraction there is no point. -/
def withFraction (a b : Text) : Text := if stripZeros b = [] then a else a ++ '.' :: stripZeros b

/-- The exponent with at least two digits. -/
def printExponent (x : Int) : Text :=
  'e' :: (if x < 0 then '-' else '+') :: (if x.natAbs < 10 then '0' :: printNat x.natAbs else printNat x.natAbs)

/-- The format `%.*g` with precision `p` for the digits `d` and the exponent `x` of the first one (ISO C, 7.21.6.1). -/
def layoutG (p d : Nat) (x : Int) : Text :=
  let ds := Nat.toDigits 10 d
  if -4 ≤ x ∧ x < p then
    if 0 ≤ x then withFraction (ds.take (x.toNat + 1)) (ds.drop (x.toNat + 1))
    else withFraction ['0'] (List.replicate (-x - 1).toNat '0' ++ ds)
  else withFraction (ds.take 1) (ds.drop 1) ++ printExponent x

/-- `out << std::setprecision(p) << x` without the sign. -/
noncomputable def printMag (p : Nat) (m : ℝ) : Text :=
  open Classical in if m = 0 then ['0'] else layoutG p (sigDigits p m).1 (sigDigits p m).2

/-- The sign. -/
def printSign (neg : Bool) : Text := if neg then ['-'] else []

/-- decode_vector.cpp:16 `cout << std::setprecision(std::numeric_limits<T>::digits10+1) << x`. -/
noncomputable def printFloat (T : FloatType) : FloatValue → Text
  | .finite neg m => printSign neg ++ printMag (T.digits10 + 1) m
  | .infinity neg => printSign neg ++ ['i', 'n', 'f']
  | .nan neg => printSign neg ++ ['n', 'a', 'n']

/-- decode_vector.cpp:11-17 `convert_num_data<T>` for `float` and `double`. -/
noncomputable def decodeFloats (T : FloatType) (v : List FloatValue) : Text := v.flatMap fun x => printFloat T x ++ ['\n']

/-! ### Reading -/

/-- A number as it is written: `mant * base ^ exp` with a sign, or one of the special values. -/
inductive NumberText
  | finite (neg : Bool) (mant base : Nat) (exp : Int)
  | infinity (neg : Bool)
  | nan (neg : Bool)
deriving DecidableEq, Repr

/-- Whether the text starts with the given lower case letters, in any case. -/
def startsCI (w s : Text) : Bool := w.isPrefixOf (s.map Char.toLower)

/-- The exponent after the letter `marker`, zero if there is none. -/
def readExponent (marker : Char) (s : Text) : Int :=
  match s with
  | [] => 0
  | c :: r =>
    if c.toLower = marker then
      let ds := (readSign r).2.takeWhile Char.isDigit
      if (readSign r).1 then -(Nat.ofDigitChars 10 ds 0 : Int) else Nat.ofDigitChars 10 ds 0
    else 0

/-- The digits behind a point, and what follows. -/
def readFraction (digit : Char → Bool) : Text → Text × Text
  | '.' :: r => (r.takeWhile digit, r.dropWhile digit)
  | r => ([], r)

/-- Decimal numbers. -/
def scanDecimal (neg : Bool) (s : Text) : Option NumberText :=
  let a := s.takeWhile Char.isDigit
  let (b, r) := readFraction Char.isDigit (s.dropWhile Char.isDigit)
  if a ++ b = [] then none else some (.finite neg (Nat.ofDigitChars 10 (a ++ b) 0) 10 (readExponent 'e' r - b.length))

/-- Hexadecimal digits. -/
def isHexDigit (c : Char) : Bool := c.isDigit || (decide ('a' ≤ c.toLower) && decide (c.toLower ≤ 'f'))

/-- Their values. -/
def hexValue (c : Char) : Nat := if c.isDigit then c.toNat - '0'.toNat else c.toLower.toNat - 'a'.toNat + 10

/-- Hexadecimal numbers, after `0x`. -/
def scanHex (neg : Bool) (s : Text) : Option NumberText :=
  let a := s.takeWhile isHexDigit
  let (b, r) := readFraction isHexDigit (s.dropWhile isHexDigit)
  if a ++ b = [] then none
  else some (.finite neg ((a ++ b).foldl (fun v c => 16 * v + hexValue c) 0) 2 (readExponent 'p' r - 4 * b.length))

/-- What `strtold` recognises (ISO C, 7.22.1.3), before rounding; `none` if there is no number. What follows the number is ignored. -/
def scanNumber (s : Text) : Option NumberText :=
  let (neg, s) := readSign (s.dropWhile isSpace)
  if startsCI ['i', 'n', 'f'] s then some (.infinity neg)
  else if startsCI ['n', 'a', 'n'] s then some (.nan neg)
  else if startsCI ['0', 'x'] s then (scanHex neg (s.drop 2)).or (scanDecimal neg s)
  else scanDecimal neg s

/-- `stold`: the number rounded to `long double`. Throws if there is no number or it is out of range. (Simplification: subnormal numbers that
are exact would be accepted; they are smaller than every number of type `double`.) -/
noncomputable def stold (line : Text) : Res FloatValue :=
  open Classical in
  match scanNumber line with
  | none => .error
  | some (.infinity neg) => .ok (.infinity neg)
  | some (.nan neg) => .ok (.nan neg)
  | some (.finite neg mant base exp) =>
    let y := longDouble.round (mant * (base : ℝ) ^ exp)
    if 2 ^ longDouble.emax ≤ y then .error
    else if mant ≠ 0 ∧ y < 2 ^ longDouble.emin then .error
    else .ok (.finite neg y)

/-- The conversion from `long double`; undefined if the result is not in the range (C++14, 4.8), most compilers yield infinity. -/
noncomputable def narrow (T : FloatType) : FloatValue → Res FloatValue
  | .finite neg x => open Classical in if 2 ^ T.emax ≤ T.round x then .ub else .ok (.finite neg (T.round x))
  | .infinity neg => .ok (.infinity neg)
  | .nan neg => .ok (.nan neg)

/-- encode_vector.cpp:26-34, the loop of `convert_float_data<T>`. -/
noncomputable def encodeFloatLines (T : FloatType) (v : List FloatValue) : List Text → Res (List FloatValue)
  | [] => .ok v
  | line :: lines => do
    let x ← stold line
    let y ← narrow T x
    encodeFloatLines T (v ++ [y]) lines

/-- encode_vector.cpp:26-34 `convert_float_data<T>`. -/
noncomputable def encodeFloats (T : FloatType) (text : Text) : Res (List FloatValue) := encodeFloatLines T [] (getLines text)

end RK
