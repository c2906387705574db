import Verif.Basic
/-! Vectors seen as functions: `fn v x` is the element at `x`. Only used with in-bounds hypotheses. -/
namespace RK
variable {α : Type} [Inhabited α]

def fn (v : List α) (x : Nat) : α := (rd v x).getD default

theorem rd_fn {v : List α} {x : Nat} (h : x < v.length) : rd v x = some (fn v x) := by
  unfold fn; rw [rd_lt h]; rfl

theorem fn_of_rd {v : List α} {x : Nat} {y : α} (h : rd v x = some y) : fn v x = y := by
  unfold fn; rw [h]; rfl

theorem fn_set {v : List α} {i x : Nat} {y : α} (h : i < v.length) :
    fn (v.set i y) x = if x = i then y else fn v x := by
  unfold fn; rw [rd_set h]; split <;> rfl

theorem fn_replicate {n x : Nat} {y : α} (h : x < n) : fn (List.replicate n y) x = y :=
  fn_of_rd (rd_replicate h)

end RK
