import Verif.Model.TimestampFlags
/-! Invariant of the timestamp flags: refinement to a function `Nat → Bool`. -/
namespace RK
namespace TimestampFlags

/-- The flags `f` with `n` ids represent the set `S`. -/
structure Rep (f : TimestampFlags) (n : Nat) (S : Nat → Bool) : Prop where
  len : f.lastSeen.length = n
  pos : 1 ≤ f.currentTimestamp
  lt : f.currentTimestamp < u16
  le : ∀ i x, rd f.lastSeen i = some x → x ≤ f.currentTimestamp
  rep : ∀ i x, rd f.lastSeen i = some x → (x = f.currentTimestamp ↔ S i = true)

theorem rep_new (n : Nat) : Rep (new n) n (fun _ => false) := by
  have key : ∀ i x, rd (new n).lastSeen i = some x → x = 0 := by
    intro i x h
    have hi := rd_some_lt h
    simp [new] at hi
    simp only [new] at h
    rw [rd_replicate hi] at h
    cases h; rfl
  refine ⟨by simp [new], by simp [new], by simp [new, u16], ?_, ?_⟩
  · intro i x h
    rw [key i x h]; omega
  · intro i x h
    rw [key i x h]; simp [new]

variable {f : TimestampFlags} {n : Nat} {S : Nat → Bool}

theorem Rep.isSet (h : Rep f n S) {i : Nat} (hi : i < n) : f.isSet i = some (S i) := by
  unfold TimestampFlags.isSet
  obtain ⟨x, hx⟩ := rd_isSome (v := f.lastSeen) (i := i) (by rw [h.len]; exact hi)
  have := h.rep i x hx
  simp only [hx, Option.bind_eq_bind, Option.bind_some, Option.some.injEq]
  cases hS : S i with
  | true => rw [hS] at this; simpa using this
  | false => rw [hS] at this; simpa using this

theorem Rep.set (h : Rep f n S) {i : Nat} (hi : i < n) :
    ∃ f', f.set i = some f' ∧ Rep f' n (fun j => if j = i then true else S j) := by
  have hlt : i < f.lastSeen.length := by rw [h.len]; exact hi
  refine ⟨{ f with lastSeen := f.lastSeen.set i f.currentTimestamp }, ?_, ?_⟩
  · simp [TimestampFlags.set, wr_lt hlt]
  · refine ⟨by simpa using h.len, h.pos, h.lt, ?_, ?_⟩
    · intro j x hx
      simp only [rd_set hlt] at hx
      split at hx
      · cases hx; exact Nat.le_refl _
      · exact h.le j x hx
    · intro j x hx
      simp only [rd_set hlt] at hx
      split at hx
      · rename_i hj; cases hx; simp [hj]
      · rename_i hj; simp only [if_neg hj]; exact h.rep j x hx

theorem Rep.resetOne (h : Rep f n S) {i : Nat} (hi : i < n) :
    ∃ f', f.resetOne i = some f' ∧ Rep f' n (fun j => if j = i then false else S j) := by
  have hlt : i < f.lastSeen.length := by rw [h.len]; exact hi
  have hp := h.pos
  have hl := h.lt
  have hv : (f.currentTimestamp + u16 - 1) % u16 = f.currentTimestamp - 1 := by
    unfold u16 at *; omega
  refine ⟨{ f with lastSeen := f.lastSeen.set i (f.currentTimestamp - 1) }, ?_, ?_⟩
  · simp [TimestampFlags.resetOne, wr_lt hlt, hv]
  · refine ⟨by simpa using h.len, h.pos, h.lt, ?_, ?_⟩
    · intro j x hx
      simp only [rd_set hlt] at hx
      split at hx
      · cases hx; simp
      · exact h.le j x hx
    · intro j x hx
      simp only [rd_set hlt] at hx
      split at hx
      · rename_i hj; cases hx; simp [hj]; omega
      · rename_i hj; simp only [if_neg hj]; exact h.rep j x hx

theorem Rep.resetAll (h : Rep f n S) : Rep f.resetAll n (fun _ => false) := by
  have hp := h.pos
  have hl := h.lt
  unfold TimestampFlags.resetAll
  by_cases ht : (f.currentTimestamp + 1) % u16 = 0
  · simp only [ht, if_true]
    have := rep_new n
    rw [h.len]
    exact this
  · simp only [if_neg ht]
    have hv : (f.currentTimestamp + 1) % u16 = f.currentTimestamp + 1 := by
      unfold u16 at *; omega
    rw [hv]
    refine ⟨h.len, by simp, by unfold u16 at *; simp; omega, ?_, ?_⟩
    · intro j x hx
      have := h.le j x hx
      simp; omega
    · intro j x hx
      have := h.le j x hx
      simp; omega

end TimestampFlags
end RK
