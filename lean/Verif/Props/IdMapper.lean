import Verif.Proof.IdMapper
import Verif.Proof.Filter
import Verif.Props.BitVector
/-! # Property theorems C09 (filter.h), C13, C14 (id_mapper.h, id_mapper.cpp, bit_select.cpp)

The bit vectors are those in the variables of an arbitrary program (`BVReachable`, Props/BitVector),
their contents are expressed by `is_set`. -/
namespace RK.Props
open Spec BitVector

/-- Is bit `x` of `v` set, according to `is_set`? -/
def On (v : BitVector) (x : Nat) : Bool := v.isSet x == some true

/-- Number of set bits below `x`. -/
def onesBelow (v : BitVector) (x : Nat) : Nat := ((List.range x).filter (On v)).length

theorem on_eq {v : BitVector} {B : List Bool} (h : v.Rep B) (x : Nat) : On v x = at' B x := by
  unfold On
  by_cases hx : x < B.length
  · rw [h.isSet hx]; cases at' B x <;> rfl
  · rw [at_ge (by omega)]
    have : v.isSet x = none := by
      unfold BitVector.isSet
      have c : decide (x < v.size) = false := by simp [h.size]; omega
      simp only [c, Option.bind_eq_bind]; rfl
    rw [this]; rfl

theorem onesBelow_eq {v : BitVector} {B : List Bool} (h : v.Rep B) (x : Nat) :
    onesBelow v x = rk (at' B) x := by
  unfold onesBelow rk
  rw [← List.countP_eq_length_filter]
  apply List.countP_congr
  intro y _
  rw [on_eq h]

/-- The elements of `xs` at the positions where `p` holds, in order. -/
def elementsAt (p : Nat → Bool) (xs : List α) : List α := (xs.zipIdx.filter fun q => p q.2).map (·.1)

theorem pick_eq {v : BitVector} {B : List Bool} (h : v.Rep B) (want : Bool) {xs : List α}
    (hl : B.length = xs.length) : pick want B xs = elementsAt (fun i => On v i == want) xs := by
  have key : ∀ (xs : List α) (B' C : List Bool), B'.length = xs.length → B = C ++ B' →
      pick want B' xs = ((xs.zipIdx C.length).filter fun q => On v q.2 == want).map (·.1) := by
    intro xs
    induction xs with
    | nil =>
      intro B' C h1 _
      have : B' = [] := List.length_eq_zero_iff.1 h1
      subst this; rfl
    | cons x xs ih =>
      intro B' C h1 h2
      cases B' with
      | nil => simp at h1
      | cons b B' =>
        have hb : On v C.length = b := by
          rw [on_eq h, at_lt (by rw [h2]; simp)]; simp [h2]
        have ih' := ih B' (C ++ [b]) (by simpa using h1) (by simp [h2])
        unfold pick at ih' ⊢
        rw [List.zip_cons_cons, List.zipIdx_cons, List.filter_cons, List.filter_cons]
        simp only [hb]
        rw [List.length_append, List.length_singleton] at ih'
        by_cases hw : (b == want) = true
        · rw [if_pos hw, if_pos hw, List.map_cons, List.map_cons, ih']
        · rw [if_neg hw, if_neg hw, ih']
  exact key xs B [] hl rfl

/-- C09. The keep filters return exactly the elements whose bit is set, the remove filters exactly the
others, in the original order. -/
theorem C09_filters {e : BVState} (he : BVReachable e) (r : Nat) (xs : List α)
    (hl : (e r).size = xs.length) :
    inplaceKeep (e r) xs = some (elementsAt (On (e r)) xs) ∧
    keepElementIf (e r) xs = some (elementsAt (On (e r)) xs) ∧
    inplaceRemove (e r) xs = some (elementsAt (fun i => !On (e r) i) xs) ∧
    removeElementIf (e r) xs = some (elementsAt (fun i => !On (e r) i) xs) := by
  obtain ⟨E, hE⟩ := he.rep
  have h := hE r
  rw [h.size] at hl
  have ht : inplaceFilter true (e r) xs = some (elementsAt (On (e r)) xs) := by
    rw [inplaceFilter_spec h true xs hl, pick_eq h true hl]
    simp
  have hf : inplaceFilter false (e r) xs = some (elementsAt (fun i => !On (e r) i) xs) := by
    rw [inplaceFilter_spec h false xs hl, pick_eq h false hl]
    simp
  exact ⟨ht, ht, hf, hf⟩

example : (((BitVector.new 5 false).bind (·.set 1)).bind (·.set 3)).bind
    (fun f => inplaceKeep f ["a", "b", "c", "d", "e"]) = some ["b", "d"] := by decide

/-- C13. A `LocalIDMapper` built from a bit vector numbers the set bits by the number of set bits before
them; unset and out-of-range ids map to the given invalid value (or violate the precondition of the
one-argument variant). -/
theorem C13_local_ids_are_ranks {e : BVState} (he : BVReachable e) (r : Nat) :
    ∃ m, LocalIDMapper.new (e r) = some m ∧
      m.globalIdCount = (e r).size ∧ m.localIdCount = onesBelow (e r) (e r).size ∧
      (∀ g, g < (e r).size → m.isGlobalIdMapped g = some (On (e r) g)) ∧
      (∀ g, On (e r) g = true → m.toLocal g = some (onesBelow (e r) g)) ∧
      (∀ g, On (e r) g = false → m.toLocal g = none) ∧
      (∀ g inv, m.toLocalOr g inv = some (if On (e r) g then onesBelow (e r) g else inv)) := by
  obtain ⟨E, hE⟩ := he.rep
  have h := hE r
  obtain ⟨m, em, hm⟩ := LocalIDMapper.new_spec h
  refine ⟨m, em, by rw [h.size]; exact hm.count, ?_, ?_, ?_, ?_, ?_⟩
  · rw [hm.localIdCount, onesBelow_eq h, h.size]
    exact (countP_at (E r) _ (Nat.le_refl _)).symm
  · intro g hg; rw [hm.isGlobalIdMapped (by rw [← h.size]; exact hg), on_eq h]
  · intro g hg; rw [on_eq h] at hg; rw [hm.toLocal hg, onesBelow_eq h]
  · intro g hg; rw [on_eq h] at hg; exact hm.toLocal_unmapped hg
  · intro g inv; rw [hm.toLocalOr, on_eq h, onesBelow_eq h]

/-- C13. Local ids are a strictly increasing bijection between the mapped ids and
`0, ..., local_id_count-1`. -/
theorem C13_local_ids_bijection {e : BVState} (he : BVReachable e) (r : Nat) {m : LocalIDMapper}
    (hm : LocalIDMapper.new (e r) = some m) :
    (∀ g g' l l', m.toLocal g = some l → m.toLocal g' = some l' → (g < g' ↔ l < l')) ∧
    (∀ l, l < m.localIdCount ↔ ∃ g, m.toLocal g = some l) := by
  obtain ⟨E, hE⟩ := he.rep
  have h := hE r
  obtain ⟨m', em, hok⟩ := LocalIDMapper.new_spec h
  rw [hm] at em; cases em
  have inv : ∀ g l, m.toLocal g = some l → at' (E r) g = true ∧ rk (at' (E r)) g = l := by
    intro g l hgl
    cases hg : at' (E r) g with
    | true => rw [hok.toLocal hg] at hgl; injection hgl with hgl; exact ⟨rfl, hgl⟩
    | false => rw [hok.toLocal_unmapped hg] at hgl; cases hgl
  constructor
  · intro g g' l l' h1 h2
    obtain ⟨a1, b1⟩ := inv g l h1
    obtain ⟨a2, b2⟩ := inv g' l' h2
    constructor
    · intro hlt; rw [← b1, ← b2]; exact rk_lt_of_set a1 hlt
    · intro hlt
      by_contra hc
      have := rk_mono (at' (E r)) (show g' ≤ g by omega)
      omega
  · intro l
    rw [hok.localIdCount, ← countP_at (E r) _ (Nat.le_refl _)]
    constructor
    · intro hl
      obtain ⟨x, _, hx⟩ := sel_exists (f := at' (E r)) hl
      exact ⟨x, by rw [hok.toLocal hx.1, hx.2]⟩
    · rintro ⟨g, hg⟩
      obtain ⟨a1, b1⟩ := inv g l hg
      rw [← b1]; exact rk_lt_of_set a1 (at_eq_true_lt a1)

/-- C13. A default constructed mapper knows no ids: every id is mapped to the given invalid value. -/
theorem C13_default_constructed : LocalIDMapper.null.globalIdCount = 0 ∧ LocalIDMapper.null.localIdCount = 0 ∧
    ∀ g inv, LocalIDMapper.null.toLocal g = none ∧ LocalIDMapper.null.isGlobalIdMapped g = none ∧ LocalIDMapper.null.toLocalOr g inv = some inv :=
  ⟨rfl, rfl, fun _ _ => ⟨rfl, rfl, rfl⟩⟩

/-- C14. `to_global` inverts `to_local`: it is defined exactly for the local ids below
`local_id_count`, returns the set bit with this number, and both round trips are the identity. -/
theorem C14_to_global_inverse {e : BVState} (he : BVReachable e) (r : Nat) :
    ∃ m, IDMapper.new (e r) = some m ∧
      (∀ l, l < m.base.localIdCount → ∃ g, m.toGlobal l = some g ∧ On (e r) g = true ∧
        onesBelow (e r) g = l ∧ m.base.toLocal g = some l) ∧
      (∀ g, On (e r) g = true → ∃ l, m.base.toLocal g = some l ∧ m.toGlobal l = some g) ∧
      m.base.localIdCount = onesBelow (e r) (e r).size := by
  obtain ⟨E, hE⟩ := he.rep
  have h := hE r
  obtain ⟨m, em, hm, _⟩ := IDMapper.new_spec h
  have hc := hm.base.localIdCount
  refine ⟨m, em, ?_, ?_, ?_⟩
  · intro l hl
    rw [hc] at hl
    obtain ⟨g, eg, hs⟩ := hm.toGlobal hl
    exact ⟨g, eg, by rw [on_eq h]; exact hs.1, by rw [onesBelow_eq h]; exact hs.2,
      by rw [hm.base.toLocal hs.1, hs.2]⟩
  · intro g hg
    rw [on_eq h] at hg
    have hl := rk_lt_of_set hg (at_eq_true_lt hg)
    refine ⟨_, hm.base.toLocal hg, ?_⟩
    obtain ⟨g', eg, hs⟩ := hm.toGlobal (l := rk (at' (E r)) g)
      (by rw [← countP_at (E r) _ (Nat.le_refl _)]; exact hl)
    rw [eg, hs.unique ⟨hg, rfl⟩]
  · rw [hc, onesBelow_eq h, h.size]
    exact (countP_at (E r) _ (Nat.le_refl _)).symm

/-- Non-vacuity: a vector of 600 bits with the bits 3, 64 and 599 set. -/
def exampleVector : Option BitVector :=
  (((BitVector.new 600 false).bind (·.set 3)).bind (·.set 64)).bind (·.set 599)

example : (exampleVector.bind fun v => (IDMapper.new v).bind fun m =>
    (m.base.toLocal 64).bind fun a => (m.toGlobal 2).bind fun b => some (a, b, m.base.localIdCount)) =
    some (1, 599, 3) := by decide

end RK.Props
