import Mathlib.Data.Nat.Find
import Verif.Spec.Cch
/-! Helper lemmas: the elimination game and paths through lower nodes. -/
namespace RK
open Spec

variable {E U : Nat → Nat → Prop}

theorem innerPath_mono {I J : Nat → Prop} (h : ∀ z, I z → J z) {x y : Nat} (hp : InnerPath E I x y) :
    InnerPath E J x y := by
  induction hp with
  | edge he => exact .edge he
  | step he hz _ ih => exact .step he (h _ hz) ih

theorem innerPath_append {I : Nat → Prop} {x z y : Nat} (h1 : InnerPath E I x z) (hz : I z)
    (h2 : InnerPath E I z y) : InnerPath E I x y := by
  induction h1 with
  | edge he => exact .step he hz h2
  | step he hz' _ ih => exact .step he hz' (ih hz h2)

theorem innerPath_symm (hE : ∀ x y, E x y → E y x) {I : Nat → Prop} {x y : Nat} (h : InnerPath E I x y) :
    InnerPath E I y x := by
  induction h with
  | edge he => exact .edge (hE _ _ he)
  | step he hz _ ih => exact innerPath_append ih hz (.edge (hE _ _ he))

/-- A path with inner nodes at most `r` either avoids `r` or consists of two paths ending in `r`. -/
theorem innerPath_split {r x y : Nat} (h : InnerPath E (fun z => z < r + 1) x y) :
    InnerPath E (fun z => z < r) x y ∨
      (InnerPath E (fun z => z < r) x r ∧ InnerPath E (fun z => z < r) r y) := by
  induction h with
  | edge he => exact Or.inl (.edge he)
  | @step x z y he hz _ ih =>
    by_cases hzr : z = r
    · subst hzr
      rcases ih with h | ⟨_, h⟩
      · exact Or.inr ⟨.edge he, h⟩
      · exact Or.inr ⟨.edge he, h⟩
    · have hz' : z < r := by omega
      rcases ih with h | ⟨h1, h2⟩
      · exact Or.inl (.step he hz' h)
      · exact Or.inr ⟨.step he hz' h1, h2⟩

/-- What the elimination game guarantees about the relation `U` of upward neighbours. -/
structure FillOk (n : Nat) (E U : Nat → Nat → Prop) : Prop where
  symm : ∀ x y, E x y → E y x
  base : ∀ x y, E x y → x < y → U x y
  sound : ∀ x y, U x y → x < y ∧ y < n ∧ InnerPath E (fun z => z < x) x y
  low : ∀ x a b, U x a → U x b → (∀ c, U x c → a ≤ c) → a < b → U a b

namespace FillOk

theorem exists_low (h : FillOk n E U) {x b : Nat} (hb : U x b) : ∃ a, U x a ∧ ∀ c, U x c → a ≤ c := by
  classical
  have : ∃ a, U x a := ⟨b, hb⟩
  exact ⟨Nat.find this, Nat.find_spec this, fun c hc => Nat.find_min' this hc⟩

/-- The upward neighbours of a node are adjacent to each other. -/
theorem closed (h : FillOk n E U) : ∀ {k x a b : Nat}, x + k = n → U x a → U x b → a < b → U a b
  | k, x, a, b, hk, ha, hb, hab => by
    obtain ⟨l, hl, hmin⟩ := h.exists_low ha
    have h1 := hmin a ha
    by_cases hla : l = a
    · subst hla
      exact h.low x l b hl hb hmin hab
    · have h2 := h.low x l a hl ha hmin (by omega)
      have h3 := h.low x l b hl hb hmin (by omega)
      obtain ⟨hxl, hln, _⟩ := h.sound x l hl
      exact h.closed (k := n - l) (by omega) h2 h3 hab
termination_by k => k
decreasing_by omega

theorem closed' (h : FillOk n E U) {x a b : Nat} (ha : U x a) (hb : U x b) (hab : a < b) : U a b := by
  obtain ⟨h1, h2, _⟩ := h.sound x a ha
  exact h.closed (k := n - x) (by omega) ha hb hab

theorem complete_aux (h : FillOk n E U) : ∀ (r x y : Nat), r ≤ x → r ≤ y → x ≠ y →
    InnerPath E (fun z => z < r) x y → (x < y → U x y) ∧ (y < x → U y x)
  | 0, x, y, _, _, hxy, hp => by
    cases hp with
    | edge he => exact ⟨fun h' => h.base _ _ he h', fun h' => h.base _ _ (h.symm _ _ he) h'⟩
    | step _ hz _ => exact absurd hz (Nat.not_lt_zero _)
  | r + 1, x, y, hx, hy, hxy, hp => by
    rcases innerPath_split hp with h1 | ⟨h1, h2⟩
    · exact h.complete_aux r x y (by omega) (by omega) hxy h1
    · have a1 := (h.complete_aux r x r (by omega) (by omega) (by omega) h1).2 (by omega)
      have a2 := (h.complete_aux r r y (by omega) (by omega) (by omega) h2).1 (by omega)
      exact ⟨fun h' => h.closed' a1 a2 h', fun h' => h.closed' a2 a1 h'⟩

/-- The upward neighbours are exactly the ends of paths through lower nodes. -/
theorem iff (h : FillOk n E U) (x y : Nat) : U x y ↔ x < y ∧ InnerPath E (fun z => z < x) x y := by
  constructor
  · intro hu
    obtain ⟨h1, _, h2⟩ := h.sound x y hu
    exact ⟨h1, h2⟩
  · rintro ⟨h1, h2⟩
    exact (h.complete_aux x x y (Nat.le_refl _) (by omega) (by omega) h2).1 h1

end FillOk
end RK
