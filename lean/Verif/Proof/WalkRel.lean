import Verif.Basic
/-! Walks along a weighted relation `R x y w`. -/
namespace RK

inductive RWalk (R : Nat → Nat → Nat → Prop) : Nat → Nat → Nat → Prop
  | nil (x : Nat) : RWalk R x x 0
  | cons {x y z w l : Nat} : R x y w → RWalk R y z l → RWalk R x z (w + l)

namespace RWalk
variable {R R' : Nat → Nat → Nat → Prop}

theorem append {x y z l l' : Nat} (h : RWalk R x y l) (h' : RWalk R y z l') : RWalk R x z (l + l') := by
  induction h with
  | nil x => simpa using h'
  | cons ha _ ih => rw [Nat.add_assoc]; exact .cons ha (ih h')

theorem single {x y w : Nat} (h : R x y w) : RWalk R x y w := .cons h (.nil y)

theorem snoc {x y z l w : Nat} (h : RWalk R x y l) (ha : R y z w) : RWalk R x z (l + w) :=
  h.append (single ha)

theorem mono {x y l : Nat} (hR : ∀ x y w, R x y w → R' x y w) (h : RWalk R x y l) : RWalk R' x y l := by
  induction h with
  | nil x => exact .nil x
  | cons ha _ ih => exact .cons (hR _ _ _ ha) ih

theorem dom {x y l : Nat} (hR : ∀ x y w, R x y w → ∃ w', w' ≤ w ∧ R' x y w') (h : RWalk R x y l) :
    ∃ l', l' ≤ l ∧ RWalk R' x y l' := by
  induction h with
  | nil x => exact ⟨0, Nat.le_refl _, .nil x⟩
  | cons ha _ ih =>
    obtain ⟨w', hw, ha'⟩ := hR _ _ _ ha
    obtain ⟨l', hl, h'⟩ := ih
    exact ⟨_, Nat.add_le_add hw hl, .cons ha' h'⟩

/-- Every arc replaced by a walk. -/
theorem subst {x y l : Nat} (hR : ∀ x y w, R x y w → ∃ w', w' ≤ w ∧ RWalk R' x y w') (h : RWalk R x y l) :
    ∃ l', l' ≤ l ∧ RWalk R' x y l' := by
  induction h with
  | nil x => exact ⟨0, Nat.le_refl _, .nil x⟩
  | cons ha _ ih =>
    obtain ⟨w', hw, ha'⟩ := hR _ _ _ ha
    obtain ⟨l', hl, h'⟩ := ih
    exact ⟨_, Nat.add_le_add hw hl, ha'.append h'⟩

theorem subst_eq {x y l : Nat} (hR : ∀ x y w, R x y w → RWalk R' x y w) (h : RWalk R x y l) :
    RWalk R' x y l := by
  induction h with
  | nil x => exact .nil x
  | cons ha _ ih => exact (hR _ _ _ ha).append ih

/-- Walks in the reversed relation. -/
theorem reverse {x y l : Nat} (h : RWalk R x y l) : RWalk (fun a b w => R b a w) y x l := by
  induction h with
  | nil x => exact .nil x
  | cons ha _ ih => rw [Nat.add_comm]; exact ih.snoc ha

end RWalk
end RK
