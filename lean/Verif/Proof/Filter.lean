import Verif.Model.Filter
import Verif.Proof.BitVector
/-! # Proofs about the vector filters -/
namespace RK
open BitVector

/-- the elements of `xs` whose bit in `B` is `want` -/
def pick (want : Bool) (B : List Bool) (xs : List α) : List α :=
  ((B.zip xs).filter fun p => p.1 == want).map (·.2)

theorem pick_snoc {want : Bool} {B : List Bool} {xs : List α} {b : Bool} {x : α} (h : B.length = xs.length) :
    pick want (B ++ [b]) (xs ++ [x]) = pick want B xs ++ if b = want then [x] else [] := by
  unfold pick
  rw [List.zip_append h]
  by_cases hb : b = want <;> simp [List.filter_append, hb]

theorem pick_length_le {want : Bool} {B : List Bool} {xs : List α} : (pick want B xs).length ≤ xs.length := by
  unfold pick
  have := List.length_filter_le (fun p : Bool × α => p.1 == want) (B.zip xs)
  simp only [List.length_zip, List.length_map] at this ⊢
  omega

theorem inplaceFilter_spec {v : BitVector} {B : List Bool} (h : v.Rep B) (want : Bool) (xs : List α)
    (hl : B.length = xs.length) : inplaceFilter want v xs = some (pick want B xs) := by
  unfold inplaceFilter
  have hc : decide (v.size = xs.length) = true := by simp [h.size, hl]
  simp only [hc, check_true, Option.bind_eq_bind, Option.bind_some]
  obtain ⟨⟨ys, out⟩, e, h1, h2, h3, h4⟩ := forRange_inv (lo := 0) (hi := xs.length) (s := (xs, 0))
    (f := fun s i => (v.isSet i).bind fun b => if b = want then
      (rd s.1 i).bind fun x => (wr s.1 s.2 x).bind fun v => some (v, s.2 + 1) else some s)
    (fun i s => s.1.length = xs.length ∧ s.2 = (pick want (B.take i) (xs.take i)).length ∧
      (∀ j, i ≤ j → rd s.1 j = rd xs j) ∧ s.1.take s.2 = pick want (B.take i) (xs.take i))
    (by omega) (by simp [pick]) (by
      rintro i ⟨ys, out⟩ _ hi ⟨h1, h2, h3, h4⟩
      simp only at h1 h2 h3 h4
      have hiB : i < B.length := by omega
      have hle : out ≤ i := by
        have := pick_length_le (want := want) (B := B.take i) (xs := xs.take i)
        rw [List.length_take] at this; omega
      have htB : B.take (i + 1) = B.take i ++ [at' B i] := by
        rw [List.take_add_one, at_lt hiB, List.getElem?_eq_getElem hiB]; rfl
      have htx : xs.take (i + 1) = xs.take i ++ [xs[i]] := by
        rw [List.take_add_one, List.getElem?_eq_getElem hi]; rfl
      have hp := pick_snoc (want := want) (B := B.take i) (xs := xs.take i) (b := at' B i) (x := xs[i])
        (by simp; omega)
      rw [h.isSet hiB]
      simp only [Option.bind_some]
      by_cases hb : at' B i = want
      · rw [if_pos hb] at hp ⊢
        rw [h3 i (Nat.le_refl _), rd_lt hi]
        simp only [Option.bind_some, wr_lt (show out < ys.length by omega)]
        refine ⟨_, rfl, by simpa using h1, ?_, ?_, ?_⟩
        · dsimp only; rw [htB, htx, hp, h2]; simp
        · intro j hj; dsimp only; rw [rd_set (by omega), if_neg (by omega)]; exact h3 j (by omega)
        · dsimp only
          rw [htB, htx, hp, ← h4, List.take_add_one, List.take_set_of_le (Nat.le_refl _)]
          rw [List.getElem?_set_self (by omega)]; rfl
      · rw [if_neg hb] at hp ⊢
        refine ⟨_, rfl, h1, ?_, ?_, ?_⟩
        · dsimp only; rw [htB, htx, hp, h2]; simp
        · intro j hj; exact h3 j (by omega)
        · dsimp only; rw [htB, htx, hp, h4]; simp)
  have tB : B.take xs.length = B := List.take_of_length_le (by omega)
  have tx : xs.take xs.length = xs := List.take_of_length_le (Nat.le_refl _)
  rw [tB, tx] at h4
  rw [← h4]
  exact congrArg (fun o => Option.bind o fun p : List α × Nat => some (p.1.take p.2)) e

end RK
