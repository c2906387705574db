import Verif.Basic
/-!
# Model of the text input and output of the C++ library that the tools use

A file is a list of bytes, written as characters; only the ASCII characters matter. The "C" locale is assumed, which is
what a program gets that does not call `setlocale`. The number formats are those of libstdc++.
-/
namespace RK

abbrev Text := List Char

/-- `isspace` in the "C" locale. -/
def isSpace (c : Char) : Bool :=
  c = ' ' || c = '\t' || c = '\n' || c = Char.ofNat 11 || c = Char.ofNat 12 || c = '\r'

/-- The lines that `while(getline(in, line))` delivers; `cur` was already read. A last line without line break counts, an
empty rest does not. -/
def getLinesFrom (cur : Text) : Text → List Text
  | [] => if cur = [] then [] else [cur]
  | c :: rest => if c = '\n' then cur :: getLinesFrom [] rest else getLinesFrom (cur ++ [c]) rest

/-- All lines of a stream. -/
def getLines (text : Text) : List Text := getLinesFrom [] text

/-- `in >> std::string`: skips whitespace, reads up to the next whitespace, fails if nothing is left. The second
component is the rest of the stream. -/
def readWord (s : Text) : Option (Text × Text) :=
  let s := s.dropWhile isSpace
  let w := s.takeWhile fun c => !isSpace c
  if w = [] then none else some (w, s.dropWhile fun c => !isSpace c)

/-- An optional sign; `true` is `-`. -/
def readSign : Text → Bool × Text
  | '-' :: r => (true, r)
  | '+' :: r => (false, r)
  | s => (false, s)

/-- Skips whitespace and reads an optional sign and decimal digits; `none` if there are no digits. Returns the sign, the
absolute value and the rest. -/
def readDecimal (s : Text) : Option (Bool × Nat × Text) :=
  let (neg, s) := readSign (s.dropWhile isSpace)
  let ds := s.takeWhile Char.isDigit
  if ds = [] then none else some (neg, Nat.ofDigitChars 10 ds 0, s.dropWhile Char.isDigit)

/-- `in >> unsigned` (`num_get` of libstdc++): fails if there are no digits or the absolute value does not fit; a
negative number is taken modulo 2^32. -/
def readUnsigned (s : Text) : Option (Nat × Text) := do
  let (neg, v, r) ← readDecimal s
  if v < u32 then some (if neg then (u32 - v) % u32 else v, r) else none

/-- `out << unsigned`. -/
def printNat (n : Nat) : Text := Nat.toDigits 10 n

end RK
