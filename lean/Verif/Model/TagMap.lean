import Verif.Model.VectorIO
import Verif.Model.Cch
/-!
# Model of include/routingkit/tag_map.h

A `const char*` is the list of the bytes in front of the terminating zero; the strings must stay unchanged and alive
while the map is used (the map stores pointers). `V` is the type of the values, in the code also `const char*`.
-/
namespace RK

/-- tag_map.h:15-28 `compute_char_hash`. -/
def charHash (c : Byte) : Nat :=
  if c = 101#8 ∨ c = 69#8 then 7         -- e E
  else if c = 116#8 ∨ c = 84#8 then 8    -- t T
  else if c = 97#8 ∨ c = 65#8 then 9     -- a A
  else if c = 111#8 ∨ c = 79#8 then 10   -- o O
  else if c = 105#8 ∨ c = 73#8 then 11   -- i I
  else if c = 110#8 ∨ c = 78#8 then 12   -- n N
  else if c = 115#8 ∨ c = 83#8 then 13   -- s S
  else if c = 104#8 ∨ c = 72#8 then 14   -- h H
  else if c = 114#8 ∨ c = 82#8 then 15   -- r R
  else c.toNat % 7

/-- tag_map.h:32-46 `compute_hash`. The length of the string fits into an `unsigned`. -/
def strHash (s : List Byte) : Option Nat :=
  if s.length = 0 then some 0
  else do
    let last := s.length - 1
    let a ← rd s 0
    let b ← rd s last
    let c ← rd s (last / 2)
    some ((charHash a * 16 + charHash b) * 16 + charHash c)

/-- tag_map.h:48 `hash_count`. -/
def hashCount : Nat := 16 * 16 * 16

/-- tag_map.h:119-121, the members. -/
structure TagMap (V : Type) where
  hashElementList : List Nat
  entry : List (List Byte × V)
  entryBegin : List Nat
  entryEnd : List Nat
deriving Repr, DecidableEq

variable {V : Type}

/-- tag_map.h:51, the constructor. -/
def TagMap.new : TagMap V := ⟨[], [], List.replicate hashCount 0, List.replicate hashCount 0⟩

/-- tag_map.h:53-58 `clear`. -/
def TagMap.clear (m : TagMap V) : Option (TagMap V) :=
  forEach m.hashElementList m fun m x => do
    let b ← wr m.entryBegin (x >>> 16) 0
    let e ← wr m.entryEnd (x >>> 16) 0
    some { m with entryBegin := b, entryEnd := e }

/-- tag_map.h:66-67, the numbers that are sorted. -/
def hashElements (kv : List (List Byte × V)) : Option (List Nat) :=
  forRange 0 kv.length [] fun l i => do
    let (k, _) ← rd kv i
    let h ← strHash k
    some (l ++ [((h <<< 16) ||| i) % u32])

/-- tag_map.h:73-84, one pass; the second part of the state is `prev_hash`. Simplification: `entry` grows by one element
in each pass; the code resizes it before the loop (line 71) and overwrites the elements in order. -/
def tagPlace (kv : List (List Byte × V)) (st : TagMap V × Nat) (i : Nat) : Option (TagMap V × Nat) := do
  let (m, prev) := st
  let x ← rd m.hashElementList i
  let hash := x >>> 16
  let j := x &&& 0xFFFF
  let e ← rd kv j
  let eb ← (if hash ≠ prev then wr m.entryBegin hash i else some m.entryBegin)
  let ee ← wr m.entryEnd hash (i + 1)
  some ({ m with entry := m.entry ++ [e], entryBegin := eb, entryEnd := ee }, hash)

/-- tag_map.h:60-85 `build`; `kv` lists `(get_key(i), get_value(i))` for all `i < key_value_count`. -/
def TagMap.build (m : TagMap V) (kv : List (List Byte × V)) : Option (TagMap V) := do
  let m ← m.clear
  let l ← hashElements kv
  let m := { m with hashElementList := sortNats l, entry := [] }
  let (m, _) ← forRange 0 kv.length (m, hashCount) (tagPlace kv)
  some m

/-- tag_map.h:90-94: `n` passes of the loop from `i` on; `some none` is the null pointer. -/
def tagFind (entry : List (List Byte × V)) (key : List Byte) : Nat → Nat → Option (Option V)
  | _, 0 => some none
  | i, n + 1 => do
    let (k, v) ← rd entry i
    if k = key then some (some v) else tagFind entry key (i + 1) n

/-- tag_map.h:87-95 `operator[]`. -/
def TagMap.get (m : TagMap V) (key : List Byte) : Option (Option V) := do
  let h ← strHash key
  let b ← rd m.entryBegin h
  let e ← rd m.entryEnd h
  tagFind m.entry key b (e - b)

/-- tag_map.h:101-103 `size`. -/
def TagMap.size (m : TagMap V) : Nat := m.entry.length

/-- tag_map.h:97-99 `empty`. -/
def TagMap.empty (m : TagMap V) : Bool := m.entry.isEmpty

end RK
