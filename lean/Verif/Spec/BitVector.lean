/-! # Specification of bit vectors: programs over variables holding lists of booleans -/
namespace Spec

/-- The statements of a program over bit vector variables (named by numbers). -/
inductive BVOp
  | init (r n : Nat) (b : Bool)            -- r = BitVector(n, b)
  | copy (r s : Nat)                       -- r = s
  | set (r x : Nat)                        -- r.set(x)
  | setTo (r x : Nat) (b : Bool)           -- r.set(x, b)
  | setIf (r x : Nat) (b : Bool)           -- r.set_if(x, b)
  | reset (r x : Nat)                      -- r.reset(x)
  | toggle (r x : Nat)                     -- r.toggle(x)
  | isSet (r x : Nat)                      -- r.is_set(x)
  | size (r : Nat)                         -- r.size()
  | setAll (r : Nat)                       -- r.set_all()
  | setAllTo (r : Nat) (b : Bool)          -- r.set_all(b)
  | resetAll (r : Nat)                     -- r.reset_all()
  | orEq (r s : Nat)                       -- r |= s
  | xorEq (r s : Nat)                      -- r ^= s
  | andEq (r s : Nat)                      -- r &= s
  | inplaceNot (r : Nat)                   -- r.inplace_not()
  | countTrue (r : Nat)                    -- r.population_count()
  | countFalse (r : Nat)                   -- r.count_false()
  | isAnySet (r : Nat)                     -- r.is_any_set()
  | areAllSet (r : Nat)                    -- r.are_all_set()
  | eq (r s : Nat)                         -- r == s
  | resize (r n : Nat) (b : Bool)          -- r.resize(n, b)
  | makeLarge (r x : Nat) (b : Bool)       -- r.make_large_enough_for(x, b)
deriving Repr, DecidableEq

inductive BVOut
  | unit
  | flag (b : Bool)
  | num (k : Nat)
deriving Repr, DecidableEq

/-- Values of all variables. -/
abbrev BVEnv := Nat → List Bool

def BVEnv.update (e : BVEnv) (r : Nat) (B : List Bool) : BVEnv := fun i => if i = r then B else e i

/-- The statement changes variable `r` to `B` and returns nothing. -/
def Assigns (e : BVEnv) (r : Nat) (B : List Bool) (out : BVOut) (e' : BVEnv) : Prop :=
  out = .unit ∧ e' = e.update r B

/-- The statement returns a flag that holds iff `P`, and changes nothing. -/
def Tests (e : BVEnv) (P : Prop) (out : BVOut) (e' : BVEnv) : Prop :=
  (∃ b, out = .flag b ∧ (b = true ↔ P)) ∧ e' = e

/-- Meaning of the statements. -/
def BVStep (e : BVEnv) (op : BVOp) (out : BVOut) (e' : BVEnv) : Prop :=
  match op with
  | .init r n b => Assigns e r (List.replicate n b) out e'
  | .copy r s => Assigns e r (e s) out e'
  | .set r x => Assigns e r ((e r).set x true) out e'
  | .setTo r x b => Assigns e r ((e r).set x b) out e'
  | .setIf r x b => if b then Assigns e r ((e r).set x true) out e' else Assigns e r (e r) out e'
  | .reset r x => Assigns e r ((e r).set x false) out e'
  | .toggle r x => ∃ old, (e r)[x]? = some old ∧ Assigns e r ((e r).set x (!old)) out e'
  | .isSet r x => Tests e ((e r)[x]? = some true) out e'
  | .size r => out = .num (e r).length ∧ e' = e
  | .setAll r => Assigns e r (List.replicate (e r).length true) out e'
  | .setAllTo r b => Assigns e r (List.replicate (e r).length b) out e'
  | .resetAll r => Assigns e r (List.replicate (e r).length false) out e'
  | .orEq r s => Assigns e r (List.zipWith (· || ·) (e r) (e s)) out e'
  | .xorEq r s => Assigns e r (List.zipWith (· ^^ ·) (e r) (e s)) out e'
  | .andEq r s => Assigns e r (List.zipWith (· && ·) (e r) (e s)) out e'
  | .inplaceNot r => Assigns e r ((e r).map (!·)) out e'
  | .countTrue r => out = .num ((e r).count true) ∧ e' = e
  | .countFalse r => out = .num ((e r).count false) ∧ e' = e
  | .isAnySet r => Tests e (true ∈ e r) out e'
  | .areAllSet r => Tests e (∀ b ∈ e r, b = true) out e'
  | .eq r s => Tests e (e r = e s) out e'
  | .resize r n b => Assigns e r ((e r).take n ++ List.replicate (n - (e r).length) b) out e'
  | .makeLarge r x b => ∃ k, x < (e r).length + k ∧ Assigns e r (e r ++ List.replicate k b) out e'

/-- Sizes that can be allocated at all. -/
def maxBits : Nat := 2 ^ 64 - 512

/-- Documented preconditions: indices in bounds, operands of equal size, representable sizes. -/
def BVPre (e : BVEnv) : BVOp → Prop
  | .init _ n _ => n ≤ maxBits
  | .set r x | .setTo r x _ | .setIf r x _ | .reset r x | .toggle r x | .isSet r x => x < (e r).length
  | .orEq r s | .xorEq r s | .andEq r s => (e r).length = (e s).length
  | .resize _ n _ => n ≤ maxBits
  | .makeLarge _ x _ => x < 2 ^ 63
  | _ => True

/-- The calls for which the code deviates from the specification (see C11, C12):
`are_all_set` on a positive multiple of 512 bits, and growing with value `true` unless both sizes are
no multiple of 512. -/
def BVDefect (e : BVEnv) : BVOp → Prop
  | .areAllSet r => (e r).length % 512 = 0 ∧ (e r).length ≠ 0
  | .resize r n true => (e r).length ≤ n ∧ ((e r).length % 512 = 0 ∨ n % 512 = 0)
  | .makeLarge r x true => (e r).length ≤ x ∧ ((e r).length % 512 = 0 ∨ 256 ≤ x)
  | _ => False

/-- Construction, copy and element access. -/
def BVOp.isElementOp : BVOp → Prop
  | .init .. | .copy .. | .set .. | .setTo .. | .setIf .. | .reset .. | .toggle .. | .isSet .. | .size .. => True
  | _ => False

end Spec
