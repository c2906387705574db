import Verif.Res
import Verif.Model.TextIO
/-!
# Model of `/repo/src/encode_vector.cpp` and `/repo/src/decode_vector.cpp`

`encode_vector` reads text from the standard input and writes a vector file, `decode_vector` prints the elements of a
vector file. Reading and writing vector files is modelled in `Model/VectorIO.lean`; here the vectors themselves are the result and the
argument. Of the floating point types only the printing of numbers from 1 to 10 is modelled here; see `Model/FloatText.lean` for the rest.
-/
namespace RK

/-- `stoll`: `strtoll` with base 10; throws if there are no digits or the number does not fit. What follows the number is
ignored. -/
def stoll (line : Text) : Res Int :=
  match readDecimal line with
  | none => .error
  | some (neg, v, _) =>
    if neg then if v ≤ 9223372036854775808 then .ok (-(v : Int)) else .error
    else if v < 9223372036854775808 then .ok v else .error

/-- `stoull`: like `stoll`, but a negative number is taken modulo 2^64. -/
def stoull (line : Text) : Res Nat :=
  match readDecimal line with
  | none => .error
  | some (neg, v, _) =>
    if v < 18446744073709551616 then .ok (if neg then (18446744073709551616 - v) % 18446744073709551616 else v) else .error

/-- encode_vector.cpp:12-24 `convert_int_data<T>` for a type with the values from `lo` to `hi`; lines 15-22 for each line. -/
def encodeIntLines (lo hi : Int) (v : List Int) : List Text → Res (List Int)
  | [] => .ok v
  | line :: lines => do
    let x ← stoll line
    Res.require (decide (¬ x < lo))
    Res.require (decide (¬ hi < x))
    encodeIntLines lo hi (v ++ [x]) lines

/-- encode_vector.cpp:12-24 `convert_int_data`. -/
def encodeInts (lo hi : Int) (text : Text) : Res (List Int) := encodeIntLines lo hi [] (getLines text)

/-- encode_vector.cpp:36-43, the loop of `convert_uint64_data`. -/
def encodeUInt64Lines (v : List Nat) : List Text → Res (List Nat)
  | [] => .ok v
  | line :: lines => do
    let x ← stoull line
    encodeUInt64Lines (v ++ [x]) lines

/-- encode_vector.cpp:36-43 `convert_uint64_data`. -/
def encodeUInt64 (text : Text) : Res (List Nat) := encodeUInt64Lines [] (getLines text)

/-- The loop of `replace_all_substrings` (encode_vector.cpp:45-52, decode_vector.cpp:19-26); the first `skip` characters belong
to the occurrence that was replaced last. The search string is not empty in all uses. -/
def replaceFrom (search replace : Text) : Nat → Text → Text
  | _, [] => []
  | skip + 1, _ :: s => replaceFrom search replace skip s
  | 0, c :: s =>
    if search.isPrefixOf (c :: s) then replace ++ replaceFrom search replace (search.length - 1) s
    else c :: replaceFrom search replace 0 s

/-- `replace_all_substrings`. -/
def replaceAll (subject search replace : Text) : Text := replaceFrom search replace 0 subject

/-- encode_vector.cpp:58. -/
def unescapeLine (line : Text) : Text := replaceAll (replaceAll line ['\\', '\\'] ['\\']) ['\\', 'n'] ['\n']

/-- encode_vector.cpp:54-61 `convert_string_data`. -/
def encodeStrings (text : Text) : List Text := (getLines text).map unescapeLine

/-- `out << x` for the integer types of at least 16 bits; the precision does not matter. -/
def printInt (x : Int) : Text := if x < 0 then '-' :: printNat x.natAbs else printNat x.natAbs

/-- decode_vector.cpp:11-17 `convert_num_data<T>` for the integer types of at least 16 bits. -/
def decodeInts (v : List Int) : Text := v.flatMap fun x => printInt x ++ ['\n']

/-- decode_vector.cpp:11-17 `convert_num_data<T>` for `signed char` and `unsigned char`: `<<` writes the byte itself. -/
def decodeBytes (v : List Int) : Text := v.flatMap fun x => [Char.ofNat (x % 256).toNat, '\n']

/-- decode_vector.cpp:32. -/
def escapeLine (s : Text) : Text := replaceAll (replaceAll s ['\\'] ['\\', '\\']) ['\n'] ['\\', 'n']

/-- decode_vector.cpp:28-33 `convert_string_data`. -/
def decodeStrings (v : List Text) : Text := v.flatMap fun s => escapeLine s ++ ['\n']

/-- The significant digits that `<<` writes for `a/b` with 1 ≤ a/b < 10 and precision `p`: the quotient rounded to
`p-1` decimal places, ties to even; trailing zeros are omitted. Numbers outside this range are not modelled. -/
def printDigits (p a b : Nat) : Nat :=
  let n := a * 10 ^ (p - 1)
  let q := n / b
  if 2 * (n % b) < b then q else if b < 2 * (n % b) then q + 1 else if q % 2 = 0 then q else q + 1

end RK
