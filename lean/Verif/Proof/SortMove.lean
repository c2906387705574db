import Verif.Model.SortMove
/-! # Helper lemmas for the overloads that consume their argument -/
namespace RK

/-- Two loops in step. -/
theorem forN_sim {σ τ : Type} {f : σ → Nat → Option σ} {g : τ → Nat → Option τ} (R : Nat → σ → τ → Prop) :
    ∀ (n lo : Nat) (s : σ) (t : τ), R lo s t →
      (∀ i s t, lo ≤ i → i < lo + n → R i s t →
        (f s i = none ∧ g t i = none) ∨ ∃ s' t', f s i = some s' ∧ g t i = some t' ∧ R (i + 1) s' t') →
      (forN f lo n s = none ∧ forN g lo n t = none) ∨
        ∃ s' t', forN f lo n s = some s' ∧ forN g lo n t = some t' ∧ R (lo + n) s' t'
  | 0, lo, s, t, h, _ => Or.inr ⟨s, t, rfl, rfl, h⟩
  | n + 1, lo, s, t, h, hs => by
    unfold forN
    rcases hs lo s t (Nat.le_refl _) (by omega) h with ⟨e1, e2⟩ | ⟨s', t', e1, e2, h'⟩
    · left; simp [e1, e2]
    · rcases forN_sim R n (lo + 1) s' t' h' (fun i s t h1 h2 => hs i s t (by omega) (by omega)) with ⟨q1, q2⟩ | ⟨s2, t2, q1, q2, q3⟩
      · left; simp [e1, e2, q1, q2]
      · right
        refine ⟨s2, t2, by simp [e1, q1], by simp [e2, q2], ?_⟩
        rw [show lo + (n + 1) = lo + 1 + n by omega]
        exact q3

variable {α : Type}

/-- One round of the loop of the copying overload (sort.h:262-267). -/
def copyToBucket (v : List α) (keyCount : Nat) (getKey : α → Nat) : List α × List Nat → Nat → Option (List α × List Nat) :=
  fun (r, keyPos) i => do
    let x ← rd v i
    let k := getKey x
    check (decide (k ≤ keyCount))
    let pos ← rd keyPos k
    let r ← wr r pos x
    let keyPos ← wr keyPos k (pos + 1)
    some (r, keyPos)

theorem bucket_round {v : List α} {keyCount : Nat} {getKey : α → Nat} {i : Nat} (hi : i < v.length) {r : List α} {kp : List Nat} :
    (moveToBucket keyCount getKey (List.replicate i none ++ (v.drop i).map some, r, kp) i = none ∧
      copyToBucket v keyCount getKey (r, kp) i = none) ∨
    ∃ r' kp', moveToBucket keyCount getKey (List.replicate i none ++ (v.drop i).map some, r, kp) i =
        some (List.replicate (i + 1) none ++ (v.drop (i + 1)).map some, r', kp') ∧
      copyToBucket v keyCount getKey (r, kp) i = some (r', kp') := by
  have hx : rd v i = some v[i] := List.getElem?_eq_getElem hi
  have hd : v.drop i = v[i] :: v.drop (i + 1) := List.drop_eq_getElem_cons hi
  have hs : rd (List.replicate i none ++ (v.drop i).map some) i = some (some v[i]) := by
    unfold rd
    rw [List.getElem?_append_right (by simp), hd]
    simp
  have hw : wr (List.replicate i none ++ (v.drop i).map some) i none =
      some (List.replicate (i + 1) none ++ (v.drop (i + 1)).map some) := by
    unfold wr
    rw [if_pos (by simp; omega), List.set_append_right _ _ (by simp), hd, List.map_cons, List.length_replicate,
      Nat.sub_self, List.set_cons_zero, List.replicate_succ', List.append_assoc]
    rfl
  unfold moveToBucket copyToBucket
  simp only [hx, hs, hw, Option.bind_eq_bind, Option.bind_some]
  rcases hc : check (decide (getKey v[i] ≤ keyCount)) with _ | _
  · left; exact ⟨rfl, rfl⟩
  · simp only [Option.bind_some]
    rcases hp : rd kp (getKey v[i]) with _ | pos
    · left; exact ⟨rfl, rfl⟩
    · simp only [Option.bind_some]
      rcases hr : wr r pos v[i] with _ | r'
      · left; exact ⟨rfl, rfl⟩
      · simp only [Option.bind_some]
        rcases hk : wr kp (getKey v[i]) (pos + 1) with _ | kp'
        · left; exact ⟨rfl, rfl⟩
        · right; exact ⟨r', kp', rfl, rfl⟩

/-- The two overloads agree; the argument is consumed entirely or not at all. -/
theorem move_spec [Inhabited α] (stdSort : SortFn) (isStable : Bool) (v : List α) (keyCount : Nat) (getKey : α → Nat) :
    (maybeStableSortUsingKeyMove stdSort isStable v keyCount getKey = none ∧
      maybeStableSortUsingKey stdSort isStable v keyCount getKey = none) ∨
    ∃ r rest, maybeStableSortUsingKeyMove stdSort isStable v keyCount getKey = some (r, rest) ∧
      maybeStableSortUsingKey stdSort isStable v keyCount getKey = some r ∧
      (rest = v.map some ∨ rest = List.replicate v.length none) := by
  unfold maybeStableSortUsingKeyMove maybeStableSortUsingKey
  by_cases hb : keyCount / bucketSortMinKeyToElementRatio ≤ v.length
  · rw [if_pos hb, if_pos hb]
    rcases hk : computeKeyPos v keyCount getKey with _ | kp
    · left; exact ⟨rfl, rfl⟩
    · simp only [Option.bind_eq_bind, Option.bind_some]
      have key := forN_sim (f := moveToBucket keyCount getKey) (g := copyToBucket v keyCount getKey)
        (fun i s t => s.1 = List.replicate i none ++ (v.drop i).map some ∧ s.2 = t) v.length 0
        (v.map some, List.replicate v.length default, kp) (List.replicate v.length default, kp) ⟨rfl, rfl⟩ (by
          rintro i ⟨s, r, k⟩ ⟨r', k'⟩ _ h2 ⟨q1, q2⟩
          simp only at q1 q2
          cases q2
          subst q1
          rcases bucket_round (keyCount := keyCount) (getKey := getKey) (r := r) (kp := k) (by omega : i < v.length) with q | ⟨r', k', e1, e2⟩
          · exact Or.inl q
          · exact Or.inr ⟨_, _, e1, e2, rfl, rfl⟩)
      have eg : (forRange 0 v.length (List.replicate v.length default, kp) (copyToBucket v keyCount getKey)) =
        forN (copyToBucket v keyCount getKey) 0 v.length (List.replicate v.length default, kp) := rfl
      have ef : (forRange 0 v.length (v.map some, List.replicate v.length default, kp) (moveToBucket keyCount getKey)) =
        forN (moveToBucket keyCount getKey) 0 v.length (v.map some, List.replicate v.length default, kp) := rfl
      change ((forRange 0 v.length (v.map some, List.replicate v.length default, kp) (moveToBucket keyCount getKey)).bind _ = none ∧
        (forRange 0 v.length (List.replicate v.length default, kp) (copyToBucket v keyCount getKey)).bind _ = none) ∨
        ∃ r rest, (forRange 0 v.length (v.map some, List.replicate v.length default, kp) (moveToBucket keyCount getKey)).bind _ = _ ∧
          (forRange 0 v.length (List.replicate v.length default, kp) (copyToBucket v keyCount getKey)).bind _ = _ ∧ _
      rw [eg, ef]
      rcases key with ⟨q1, q2⟩ | ⟨⟨s, r, k⟩, ⟨r', k'⟩, q1, q2, q3, q4⟩
      · left; rw [q1, q2]; exact ⟨rfl, rfl⟩
      · right
        simp only at q3 q4
        cases q4
        rw [q1, q2]
        refine ⟨r, s, rfl, rfl, Or.inr ?_⟩
        rw [q3]
        simp
  · rw [if_neg hb, if_neg hb]
    right
    by_cases hs : isStable = true
    · rw [if_pos hs, if_pos hs]; exact ⟨_, _, rfl, rfl, Or.inl rfl⟩
    · rw [if_neg hs, if_neg hs]; exact ⟨_, _, rfl, rfl, Or.inl rfl⟩

end RK
