import Verif.Model.Generators
import Verif.Proof.VectorText
/-! # Lemmas on the tools that generate vectors -/
namespace RK
open Spec

theorem argUnsigned_number {a : Text} {x : Int} (h : StartsWithNumber a x) (h1 : -18446744073709551616 < x) (h2 : x < 18446744073709551616) :
    argUnsigned a = .ok (x % 4294967296).toNat := by
  unfold argUnsigned
  rw [stoull_number h, if_pos ⟨h1, h2⟩, Res.ok_bind]
  have hu : u32 = 4294967296 := rfl
  rw [hu]
  congr 1
  omega

theorem argUnsigned_large {a : Text} {x : Int} (h : StartsWithNumber a x) (hx : ¬ (-18446744073709551616 < x ∧ x < 18446744073709551616)) :
    argUnsigned a = .error := by
  unfold argUnsigned
  rw [stoull_number h, if_neg hx, Res.error_bind]

theorem argUnsigned_none {a : Text} (hl : '\n' ∉ a) (h : ∀ x, ¬ StartsWithNumber a x) : argUnsigned a = .error := by
  unfold argUnsigned
  rw [stoull_none hl h, Res.error_bind]

theorem argUnsigned_small {a : Text} {x : Nat} (h : StartsWithNumber a (x : Int)) (hx : x < 4294967296) : argUnsigned a = .ok x := by
  rw [argUnsigned_number h (by omega) (by omega)]
  congr 1
  omega

theorem distributionUpTo_ok {n : Nat} (h1 : 1 ≤ n) (h2 : n ≤ 2147483648) : distributionUpTo n = .ok ((n : Int) - 1) := by
  have hu : u32 = 4294967296 := rfl
  unfold distributionUpTo unsignedToInt
  rw [hu]
  have e : (n + 4294967295) % 4294967296 = n - 1 := by omega
  simp only [e]
  rw [if_pos (by omega : n - 1 < 2147483648), if_pos (by omega)]
  have e2 : ((n - 1 : Nat) : Int) = (n : Int) - 1 := by omega
  rw [Res.ofOption_some, e2]

theorem distributionUpTo_ub {n : Nat} (h : n = 0 ∨ (2147483648 < n ∧ n < 4294967296)) : distributionUpTo n = .ub := by
  have hu : u32 = 4294967296 := rfl
  unfold distributionUpTo unsignedToInt
  rw [hu]
  simp only
  rw [if_neg (by omega : ¬ (n + 4294967295) % 4294967296 < 2147483648), if_neg (by omega)]
  rfl

theorem drawVector_length {G : Type} (R : RandomInts G) (b : Int) (k : Nat) (g : G) : (drawVector R b k g).length = k := by
  induction k generalizing g with
  | zero => rfl
  | succ k ih => simp only [drawVector, List.length_cons, ih]

theorem drawVector_take {G : Type} (R : RandomInts G) (b : Int) (k m : Nat) (g : G) :
    (drawVector R b (k + m) g).take k = drawVector R b k g := by
  induction k generalizing g with
  | zero => rfl
  | succ k ih =>
    rw [show k + 1 + m = (k + m) + 1 by omega]
    simp only [drawVector, List.take_succ_cons, ih]

/-- Draws stay within their bounds. -/
theorem drawVector_lt {G : Type} {R : RandomInts G} (hR : ∀ a b g, a ≤ b → a ≤ (R.draw a b g).1 ∧ (R.draw a b g).1 ≤ b) {n : Nat} (h1 : 1 ≤ n)
    (h2 : n ≤ 2147483648) (k : Nat) (g : G) : ∀ x ∈ drawVector R ((n : Int) - 1) k g, x < n := by
  induction k generalizing g with
  | zero => intro x hx; cases hx
  | succ k ih =>
    intro x hx
    simp only [drawVector, List.mem_cons] at hx
    rcases hx with rfl | hx
    · have := hR 0 ((n : Int) - 1) g (by omega)
      unfold intToUnsigned
      omega
    · exact ih _ x hx

theorem drawPairs_length {G : Type} (R : RandomInts G) (b : Int) (k : Nat) (g : G) : (drawPairs R b k g).length = k := by
  induction k generalizing g with
  | zero => rfl
  | succ k ih => simp only [drawPairs, List.length_cons, ih]

theorem drawPairs_lt {G : Type} {R : RandomInts G} (hR : ∀ a b g, a ≤ b → a ≤ (R.draw a b g).1 ∧ (R.draw a b g).1 ≤ b) {n : Nat} (h1 : 1 ≤ n)
    (h2 : n ≤ 2147483648) (k : Nat) (g : G) : ∀ p ∈ drawPairs R ((n : Int) - 1) k g, p.1 < n ∧ p.2 < n := by
  induction k generalizing g with
  | zero => intro x hx; cases hx
  | succ k ih =>
    intro p hp
    simp only [drawPairs, List.mem_cons] at hp
    rcases hp with rfl | hp
    · have q1 := hR 0 ((n : Int) - 1) g (by omega)
      have q2 := hR 0 ((n : Int) - 1) (R.draw 0 ((n : Int) - 1) g).2 (by omega)
      unfold intToUnsigned
      constructor
      · show (_ % _ : Int).toNat < n
        omega
      · show (_ % _ : Int).toNat < n
        omega
    · exact ih _ p hp

/-- Sources and targets in turn are the numbers that the node list tool would draw. -/
theorem drawPairs_flat {G : Type} (R : RandomInts G) (b : Int) (k : Nat) (g : G) :
    (drawPairs R b k g).flatMap (fun p => [p.1, p.2]) = drawVector R b (2 * k) g := by
  induction k generalizing g with
  | zero => rfl
  | succ k ih =>
    rw [show 2 * (k + 1) = 2 * k + 1 + 1 by omega]
    simp only [drawPairs, drawVector, List.flatMap_cons, ih, List.cons_append, List.nil_append]

theorem argCount_number {hardened : Bool} {a : Text} {n : Nat} (f : Option (List Byte)) (h : StartsWithNumber a (n : Int)) (hn : n < 4294967296) :
    argCount hardened a f = .ok n := by
  unfold argCount
  rw [argUnsigned_small h hn]

theorem argCount_file {hardened : Bool} {a : Text} {f : Option (List Byte)} {u : List Nat} (hl : '\n' ∉ a) (h : ∀ x, ¬ StartsWithNumber a x)
    (hf : loadVector hardened podUnsigned f = .ok u) (hu : u.length < 4294967296) : argCount hardened a f = .ok u.length := by
  unfold argCount
  rw [argUnsigned_none hl h]
  simp only
  rw [hf, Res.ok_bind]
  have e : u32 = 4294967296 := rfl
  rw [e, Nat.mod_eq_of_lt hu]

theorem argCount_missing {hardened : Bool} {a : Text} (hl : '\n' ∉ a) (h : ∀ x, ¬ StartsWithNumber a x) : argCount hardened a none = .error := by
  unfold argCount
  rw [argUnsigned_none hl h]
  rfl

end RK
