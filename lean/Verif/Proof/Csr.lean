import Verif.Basic
import Verif.Spec.Graph
/-! Helper lemmas about adjacency arrays. -/
namespace Spec
open RK

theorem IsCSR.le_last {n : Nat} {firstOut head : List Nat} (hg : IsCSR n firstOut head) :
    ∀ {k x e : Nat}, x + k = n → firstOut[x]? = some e → e ≤ head.length
  | 0, x, e, hx, he => by
    have := hg.last
    rw [← hx, Nat.add_zero, he] at this
    injection this with this; omega
  | k + 1, x, e, hx, he => by
    obtain ⟨f, hf⟩ := rd_isSome (v := firstOut) (i := x + 1) (by have := hg.length; omega)
    have h1 := hg.le_last (k := k) (x := x + 1) (e := f) (by omega) hf
    have h2 := hg.mono x e f he hf
    omega

/-- the arc range of a node -/
theorem IsCSR.range {n : Nat} {firstOut head : List Nat} (hg : IsCSR n firstOut head) {x : Nat}
    (hx : x < n) : ∃ b e : Nat, firstOut[x]? = some b ∧ firstOut[x + 1]? = some e ∧ b ≤ e ∧
      e ≤ head.length := by
  have hl := hg.length
  obtain ⟨b, hb⟩ := rd_isSome (v := firstOut) (i := x) (by omega)
  obtain ⟨e, he⟩ := rd_isSome (v := firstOut) (i := x + 1) (by omega)
  exact ⟨b, e, hb, he, hg.mono x b e hb he, hg.le_last (k := n - (x + 1)) (by omega) he⟩

end Spec
