import Verif.Spec.OsmExtract
import Verif.Model.OsmExtract
import Verif.Proof.OsmSimple
/-! # Lemmas about osm_extract.cpp -/
namespace RK.Osm
open _root_.Spec RK.Spec BitVector

/-- A callback which stores a value for each way. -/
theorem graphArcs_store {σ β : Type} {marked routing : Nat → Bool} {localId : Nat → Nat} {cb : WayCallback σ} {use : TagLookup → Bool}
    {val : TagLookup → β} {dir : TagLookup → WayDirection} {n : Nat} (good : σ → Prop) (get : σ → Nat → Option β)
    (hcb : ∀ u id w t, good u → w < n → ∃ u', cb u id w t = some (u', dir t) ∧ good u' ∧ ∀ j, get u' j = if j = w then some (val t) else get u j)
    {items : List OsmItem} (huniq : UniqueWays items) (hg : ∀ i ∈ items, i.GoodIds)
    (hmark : ∀ id nodes tags, OsmItem.way id nodes tags ∈ items → (marked id.toNat = true ↔ 2 ≤ nodes.length ∧ use (lookup tags) = true))
    (hinj : ∀ x y, marked x = true → marked y = true → localId x = localId y → x = y)
    (hlt : ∀ x, marked x = true → localId x < n) :
    ∀ (rest done : List OsmItem), items = done ++ rest → ∀ {u : σ}, good u →
    (∀ id nodes tags, OsmItem.way id nodes tags ∈ done → marked id.toNat = true → get u (localId id.toNat) = some (val (lookup tags))) →
    ∃ u', graphArcs marked routing localId (callbackOf cb) u rest = some (u', rest.flatMap fun i => match i with
      | .way id nodes tags =>
        if 2 ≤ nodes.length ∧ use (lookup tags) then
          arcsOfWay routing (dirForwards (dir (lookup tags))) (dirBackwards (dir (lookup tags))) id.toNat (nodes.map Int.toNat)
        else []
      | _ => []) ∧ good u' ∧
      ∀ id nodes tags, OsmItem.way id nodes tags ∈ items → marked id.toNat = true → get u' (localId id.toNat) = some (val (lookup tags)) := by
  intro rest
  induction rest with
  | nil =>
    intro done hd u hn hu
    refine ⟨u, rfl, hn, ?_⟩
    rw [hd, List.append_nil]
    exact hu
  | cons i rest ih =>
    intro done hd u hn hu
    have hd' : items = (done ++ [i]) ++ rest := by rw [hd]; simp
    have skip : (∀ id nodes tags, i = .way id nodes tags → marked id.toNat = false) →
        ∀ id nodes tags, OsmItem.way id nodes tags ∈ done ++ [i] → marked id.toNat = true → get u (localId id.toNat) = some (val (lookup tags)) := by
      intro h id nodes tags hm hk
      rcases List.mem_append.1 hm with hm | hm
      · exact hu id nodes tags hm hk
      · rw [List.mem_singleton] at hm
        rw [h id nodes tags hm.symm] at hk
        cases hk
    cases i with
    | way id nodes tags =>
      have hi : OsmItem.way id nodes tags ∈ items := by rw [hd]; simp
      rw [graphArcs, List.flatMap_cons]
      by_cases hk : marked id.toNat = true
      · have hb := (hmark id nodes tags hi).1 hk
        obtain ⟨u1, ec, hgood, hget⟩ := hcb u (BitVec.ofInt 64 id) (localId id.toNat) (lookup tags) hn (hlt _ hk)
        obtain ⟨u', e, h1, h2⟩ := ih _ hd' (u := u1) hgood (by
          intro id' nodes' tags' hm hk'
          rw [hget]
          by_cases hl : localId id'.toNat = localId id.toNat
          · have := hinj _ _ hk' hk hl
            have hm' : OsmItem.way id' nodes' tags' ∈ items := by rw [hd']; exact List.mem_append_left _ hm
            have g1 := (hg _ hm').1
            have g2 := (hg _ hi).1
            have : id' = id := by omega
            subst this
            rw [(huniq _ _ _ _ _ hm' hi).2, if_pos rfl]
          · rw [if_neg hl]
            rcases List.mem_append.1 hm with hm | hm
            · exact hu _ _ _ hm hk'
            · rw [List.mem_singleton] at hm
              cases hm
              exact absurd rfl hl)
        refine ⟨u', ?_, h1, h2⟩
        rw [if_pos hk]
        simp only [callbackOf]
        rw [ec]
        simp only [Option.bind_some, Option.map_some, e, if_pos hb]
      · have hb : ¬ (2 ≤ nodes.length ∧ use (lookup tags) = true) := fun h => hk ((hmark id nodes tags hi).2 h)
        rw [if_neg hk]
        obtain ⟨u', e, h1, h2⟩ := ih _ hd' hn (skip (by
          intro id' nodes' tags' he
          cases he
          exact Bool.not_eq_true _ ▸ hk))
        refine ⟨u', ?_, h1, h2⟩
        rw [e]
        simp only [if_neg hb, List.nil_append]
    | _ =>
      obtain ⟨u', e, h1, h2⟩ := ih _ hd' hn (skip (by intro _ _ _ he; cases he))
      exact ⟨u', e, h1, h2⟩

theorem wayName_eq (tags : List (Str × Str)) : wayName (lookup tags) = roadName tags := by
  unfold wayName roadName
  have e1 : text "name" = b!"name" := by decide
  have e2 : text "ref" = b!"ref" := by decide
  have e3 : text ";" = b!";" := by decide
  rw [e1, e2, e3]
  cases lookup tags b!"name" <;> cases lookup tags b!"ref" <;> simp [List.intercalate, List.intersperse]

/-- The slowest arc. -/
theorem slowestArc_ok {tt : List Nat} (h : tt ≠ []) : ∃ a t, slowestArc tt tt.length = some a ∧ tt[a]? = some t ∧ ∀ x ∈ tt, x ≤ t := by
  have hlen : 0 < tt.length := List.length_pos_iff.2 h
  obtain ⟨s, e, hs⟩ := forRange_inv (f := fun (s : Nat × Nat) a => do
      let t ← rd tt a
      some (if t ≥ s.2 then (a, t) else s))
    (fun i s => (i = 0 ∧ s = (invalidId, 0)) ∨ (tt[s.1]? = some s.2 ∧ ∀ (j x : Nat), j < i → tt[j]? = some x → x ≤ s.2)) (lo := 0) (hi := tt.length) (s := (invalidId, 0))
    (by omega) (Or.inl ⟨rfl, rfl⟩)
    (by
      rintro i ⟨a, t⟩ - hi hs
      have hv := List.getElem?_eq_getElem hi
      refine ⟨_, by simp only [rd, hv, Option.bind_eq_bind, Option.bind_some]; rfl, Or.inr ?_⟩
      simp only at hs ⊢
      split
      · rename_i hc
        refine ⟨hv, ?_⟩
        intro j x hj hx
        by_cases ej : j = i
        · subst ej; rw [hv] at hx; cases hx; exact Nat.le_refl _
        · rcases hs with ⟨h1, _⟩ | ⟨_, h2⟩
          · omega
          · exact Nat.le_trans (h2 j x (by omega) hx) hc
      · rename_i hc
        rcases hs with ⟨h1, h2⟩ | ⟨h1, h2⟩
        · cases h2; omega
        · refine ⟨h1, ?_⟩
          intro j x hj hx
          by_cases ej : j = i
          · subst ej; rw [hv] at hx; cases hx; omega
          · exact h2 j x (by omega) hx)
  rcases hs with ⟨h1, _⟩ | ⟨h1, h2⟩
  · omega
  · refine ⟨s.1, s.2, ?_, h1, ?_⟩
    · unfold slowestArc
      rw [e]
      rfl
    · intro x hx
      obtain ⟨j, hj⟩ := List.mem_iff_getElem?.1 hx
      exact h2 j x (List.getElem?_eq_some_iff.1 hj).1 hj

end RK.Osm
