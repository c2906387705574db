import Verif.Model.OrderTool
import Verif.Proof.Tools
import Verif.Props.Inertial
import Verif.Props.Cch
import Verif.Props.CchMetric
import Verif.Props.CchQuery
/-! Helper lemmas for the tool that computes node orders. -/
namespace RK
open Spec Props

theorem toolComputeOrder_ok {K : Type} {lt : K → K → Bool} (hlt : StrictWeak lt fun _ => True) {add sub : K → K → K}
    {nth : Nd.Nth} (hnth : NthOk nth) {junk : Nat → Bool} {junk' : Nat → Word} {n : Nat} {fo hd : List Nat} (hc : IsCSR n fo hd)
    (h0 : 0 < n) (hn : n < 2 ^ 32) (hm : hd.length < 2 ^ 31) {lat lon : List K} (hlat : n ≤ lat.length) (hlon : n ≤ lon.length)
    {depth : Nat} (hd' : 2 * hd.length < depth) :
    ∃ order, toolComputeOrder lt add sub nth junk junk' depth fo hd lat lon = .ok order ∧ order.Perm (List.range n) := by
  obtain ⟨tail, e, ht⟩ := invert_tail hc
  have hin : (inputArcs tail hd).length ≤ hd.length := by
    unfold inputArcs
    refine Nat.le_trans (List.length_filter_le _ _) ?_
    rw [List.length_zip]
    exact Nat.min_le_right _ _
  obtain ⟨order, eo, hp⟩ := C54_order lt hlt add sub nth hnth junk junk' n tail hd lat lon hlat hlon ht.length (isTail_lt hc ht)
    (fun x hx => by
      obtain ⟨a, ha⟩ := List.getElem?_of_mem hx
      exact hc.head_lt a x ha) (by omega) h0 hn depth (by omega)
  refine ⟨order, ?_, hp⟩
  unfold toolComputeOrder
  rw [e, show fo.length - 1 = n by have := hc.length; omega]
  show Res.ofOption _ = _
  rw [eo]
  rfl

theorem innerPath_end {rank tail head : List Nat} {n : Nat} (hr : ∀ (i x : Nat), rank[i]? = some x → x < n) {P : Nat → Prop}
    {x y : Nat} (h : InnerPath (Adjacent rank tail head) P x y) : y < n := by
  induction h with
  | edge h =>
    rcases h with ⟨a, t, u, _, _, h1, h2⟩ | ⟨a, t, u, _, _, h1, h2⟩
    · exact hr _ _ h2
    · exact hr _ _ h1
  | step _ _ _ ih => exact ih

/-- All pairs `x < y < n`. -/
def pairsBelow (n : Nat) : List (Nat × Nat) := (List.range n).flatMap fun y => (List.range y).map fun x => (x, y)

theorem mem_pairsBelow {n x y : Nat} (h : x < y) (hy : y < n) : (x, y) ∈ pairsBelow n := by
  unfold pairsBelow
  simp only [List.mem_flatMap, List.mem_range, List.mem_map, Prod.mk.injEq]
  exact ⟨y, hy, x, h, rfl, rfl⟩

theorem pairsBelow_length (n : Nat) : 2 * (pairsBelow n).length = n * (n - 1) := by
  induction n with
  | zero => rfl
  | succ n ih =>
    have : (pairsBelow (n + 1)).length = (pairsBelow n).length + n := by
      unfold pairsBelow
      rw [List.range_succ, List.flatMap_append, List.length_append]
      simp
    rw [this, Nat.mul_add, ih]
    cases n with
    | zero => rfl
    | succ k =>
      simp only [Nat.add_sub_cancel]
      rw [Nat.mul_comm (k + 1 + 1), Nat.mul_add, Nat.mul_add, Nat.mul_comm 2]
      have : (k + 1) * (k + 1) = (k + 1) * k + (k + 1) * 1 := Nat.mul_add _ _ _
      omega

/-- The constructor succeeds for every order of at most 92682 nodes: there are fewer than `2^32` pairs of nodes. -/
theorem build_small {order tail head : List Nat} {callable filter : Bool} (junk : Nat → Nat → Word)
    (h : CchInput order tail head callable filter) (hn : order.length ≤ 92682) :
    ∃ c, Cch.build order tail head callable filter junk = some c := by
  obtain ⟨rank, hr, hi⟩ := C25_succeeds_iff order tail head callable filter junk h
  refine hi.2 ⟨pairsBelow order.length, ?_, fun x y hxy => mem_pairsBelow hxy.1 (innerPath_end (fun i x hx => ?_) hxy.2)⟩
  · have h1 := pairsBelow_length order.length
    have h2 : order.length * (order.length - 1) ≤ 92682 * 92681 := Nat.mul_le_mul hn (by omega)
    omega
  · have := (hr.2 x i).2 hx
    exact (List.getElem?_eq_some_iff.1 this).1

end RK
