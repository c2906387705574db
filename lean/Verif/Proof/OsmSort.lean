import Verif.Proof.OsmScan
import Verif.Proof.Filter
import Verif.Proof.GraphUtil
import Verif.Proof.InverseVector
import Verif.Proof.Fragment
/-! # Proofs about the order of the arcs and the coordinates of a routing graph -/
namespace RK.Osm
open Spec BitVector

variable {fl : FloatOps} {σ : Type}

/-! ### Geometry -/

/-- The stored nodes of arcs. -/
def flat (geo : Geometry) (as : List MapArc) : List Nat := as.flatMap fun a => stored geo a.inner

theorem flat_append (geo : Geometry) (as bs : List MapArc) : flat geo (as ++ bs) = flat geo as ++ flat geo bs := by
  simp [flat]

theorem offset_rd {geo : Geometry} {as : List MapArc} {n i : Nat} (h : i < n) :
    rd (offsets geo as n) i = some (flat geo (as.take i)).length := by
  unfold offsets
  rw [rd, List.getElem?_map, List.getElem?_range h]; rfl

theorem split_at {as : List MapArc} {i : Nat} {a : MapArc} (h : rd as i = some a) :
    as = as.take i ++ a :: as.drop (i + 1) ∧ as.take (i + 1) = as.take i ++ [a] := by
  have hi := rd_some_lt h
  rw [rd_lt hi] at h
  cases h
  refine ⟨?_, ?_⟩
  · rw [← List.drop_eq_getElem_cons hi, List.take_append_drop]
  · rw [List.take_add_one, List.getElem?_eq_getElem hi]; rfl

theorem slice_ok {geo : Geometry} {as : List MapArc} {i : Nat} {a : MapArc} {β : Type} (f : Nat → β) (h : rd as i = some a) :
    slice ((flat geo as).map f) (flat geo (as.take i)).length (flat geo (as.take (i + 1))).length = some ((stored geo a.inner).map f) := by
  obtain ⟨h1, h2⟩ := split_at h
  have h3 : flat geo as = flat geo (as.take i) ++ (stored geo a.inner ++ flat geo (as.drop (i + 1))) := by
    conv_lhs => rw [h1]
    rw [flat_append]; rfl
  have h4 : flat geo (as.take (i + 1)) = flat geo (as.take i) ++ stored geo a.inner := by
    rw [h2, flat_append]; simp [flat]
  unfold slice
  have c1 : decide ((flat geo (as.take i)).length ≤ (flat geo (as.take (i + 1))).length) = true := by
    rw [h4, List.length_append]; simp
  have c2 : decide ((flat geo (as.take (i + 1))).length ≤ ((flat geo as).map f).length) = true := by
    rw [h4, h3]; simp
  simp only [c1, c2, check_true, Option.bind_eq_bind, Option.bind_some]
  rw [h4, h3, List.map_append, List.drop_append_of_le_length (by simp), List.drop_of_length_le (by simp), List.nil_append,
    List.length_append, Nat.add_sub_cancel_left, List.map_append, List.take_append_of_le_length (by simp),
    List.take_of_length_le (by simp)]

theorem offsets_take {geo : Geometry} {as bs : List MapArc} {n : Nat} (h : n ≤ as.length + 1) :
    offsets geo (as ++ bs) n = offsets geo as n := by
  unfold offsets
  apply List.map_congr_left
  intro i hi
  rw [List.mem_range] at hi
  rw [List.take_append_of_le_length (by omega)]

theorem geometryLoop {E : Env fl} {as : List MapArc} (hb : (flat E.geo as).length < 2147483648) :
    ∀ (l : List Nat) (bs done : List MapArc), List.Forall₂ (fun i a => rd as i = some a) l bs →
    forEach l ((offsets E.geo done done.length).map (· % u32), (flat E.geo done).map fun x => (E.pos x).1, (flat E.geo done).map fun x => (E.pos x).2)
      (geometryStep ((offsets E.geo as (as.length + 1)).map (· % u32)) ((flat E.geo as).map fun x => (E.pos x).1) ((flat E.geo as).map fun x => (E.pos x).2)) =
    some ((offsets E.geo (done ++ bs) (done ++ bs).length).map (· % u32), (flat E.geo (done ++ bs)).map fun x => (E.pos x).1,
      (flat E.geo (done ++ bs)).map fun x => (E.pos x).2)
  | [], _, done, .nil => by simp [forEach]
  | i :: l, a :: bs, done, .cons h1 h2 => by
    have ih := geometryLoop hb l bs (done ++ [a]) h2
    rw [List.append_assoc, List.singleton_append] at ih
    rw [forEach, ← ih]
    have hi := rd_some_lt h1
    have hu : u32 = 4294967296 := rfl
    have le : ∀ j, (flat E.geo (as.take j)).length ≤ (flat E.geo as).length := by
      intro j
      have := congrArg List.length (flat_append E.geo (as.take j) (as.drop j))
      rw [List.take_append_drop, List.length_append] at this
      omega
    have r1 : rd ((offsets E.geo as (as.length + 1)).map (· % u32)) i = some (flat E.geo (as.take i)).length := by
      have := offset_rd (geo := E.geo) (as := as) (show i < as.length + 1 by omega)
      rw [rd] at this
      rw [rd, List.getElem?_map, this, Option.map_some, Nat.mod_eq_of_lt (by have := le i; omega)]
    have r2 : rd ((offsets E.geo as (as.length + 1)).map (· % u32)) (i + 1) = some (flat E.geo (as.take (i + 1))).length := by
      have := offset_rd (geo := E.geo) (as := as) (show i + 1 < as.length + 1 by omega)
      rw [rd] at this
      rw [rd, List.getElem?_map, this, Option.map_some, Nat.mod_eq_of_lt (by have := le (i + 1); omega)]
    have c1 : decide ((flat E.geo (as.take i)).length < 2147483648) = true := by have := le i; simp; omega
    have c2 : decide ((flat E.geo (as.take (i + 1))).length < 2147483648) = true := by have := le (i + 1); simp; omega
    unfold geometryStep
    simp only [r1, r2, c1, c2, check_true, slice_ok (fun x => (E.pos x).1) h1, slice_ok (fun x => (E.pos x).2) h1, Option.bind_eq_bind, Option.bind_some]
    have ho := offsets_snoc E.geo done a
    have hf : flat E.geo (done ++ [a]) = flat E.geo done ++ stored E.geo a.inner := by rw [flat_append]; simp [flat]
    rw [hf, ho]
    simp only [List.map_append, List.length_map, List.map_cons, List.map_nil]
    rfl

theorem perm_flat {geo : Geometry} {as bs : List MapArc} (h : as.Perm bs) : (flat geo as).length = (flat geo bs).length :=
  (h.flatMap_right _).length_eq

theorem offsets_mod {geo : Geometry} {as : List MapArc} {n : Nat} (hb : (flat geo as).length < 2147483648) :
    (offsets geo as n).map (· % u32) = offsets geo as n := by
  conv_rhs => rw [← List.map_id (offsets geo as n)]
  apply List.map_congr_left
  intro x hx
  obtain ⟨i, _, rfl⟩ := List.mem_map.1 hx
  have := congrArg List.length (flat_append geo (as.take i) (as.drop i))
  rw [List.take_append_drop, List.length_append] at this
  have hu : u32 = 4294967296 := rfl
  exact Nat.mod_eq_of_lt (by unfold flat at *; omega)

theorem offsets_last (geo : Geometry) (as : List MapArc) :
    offsets geo as (as.length + 1) = offsets geo as as.length ++ [(flat geo as).length] := by
  unfold offsets
  rw [List.range_succ, List.map_append, List.map_singleton, List.take_length]
  rfl

theorem sortGeometry_ok {E : Env fl} {as as' : List MapArc} {p q : List Nat} (hb : (flat E.geo as).length < 2147483648)
    (hq : IsPermutation q) (hpq : AreInverse p q) (hp : List.Forall₂ (fun i a => rd as i = some a) p as') (hperm : as'.Perm as)
    (u : σ) (la lo : List fl.F) (rs : List TurnRestriction) :
    sortGeometry E.geo q (scanOf E as [] u la lo rs).firstMod (scanOf E as [] u la lo rs).modLat (scanOf E as [] u la lo rs).modLon =
      some (if E.geo = .none then [] else offsets E.geo as' (as'.length + 1), (flat E.geo as').map fun x => (E.pos x).1,
        (flat E.geo as').map fun x => (E.pos x).2) := by
  unfold sortGeometry
  by_cases hg : E.geo = .none
  · have hf : ∀ as, flat E.geo as = [] := by
      intro as
      unfold flat
      rw [List.flatMap_eq_nil_iff]
      intro a _
      rw [hg]; rfl
    simp only [scanOf, if_pos hg]
    have e1 := hf as
    have e2 := hf as'
    unfold flat at e1 e2 ⊢
    rw [e1, e2]
  · obtain ⟨p', e, hp', hi'⟩ := invert_areInverse hq
    have : p' = p := by
      apply List.ext_getElem?
      intro i
      apply Option.ext
      intro a
      rw [← hi'.2 a i, hpq.2 i a]
    subst this
    have e0 : (scanOf E as [] u la lo rs).firstMod ++ [(scanOf E as [] u la lo rs).modLat.length % u32] =
        (offsets E.geo as (as.length + 1)).map (· % u32) := by
      simp only [scanOf, if_neg hg, offsets_last, List.map_append, List.map_cons, List.map_nil, List.length_map, flat]
    have hl := geometryLoop (E := E) hb p' as' [] hp
    simp only [List.nil_append] at hl
    have hl' : forEach p' ([], [], []) (geometryStep ((offsets E.geo as (as.length + 1)).map (· % u32)) (scanOf E as [] u la lo rs).modLat (scanOf E as [] u la lo rs).modLon) = _ := hl
    simp only [if_neg hg, e0, e, Option.bind_eq_bind, Option.bind_some, hl']
    have hb' : (flat E.geo as').length < 2147483648 := by rw [perm_flat hperm]; exact hb
    rw [List.length_map, offsets_mod hb', offsets_last, Nat.mod_eq_of_lt (show (flat E.geo as').length < u32 by have : u32 = 4294967296 := rfl; omega)]

/-! ### Coordinates -/

theorem rk_pick {B : List Bool} {xs : List α} (hl : B.length = xs.length) :
    (pick true B xs).length = B.count true ∧ ∀ i, at' B i = true → rd (pick true B xs) (rk (at' B) i) = rd xs i := by
  induction B using List.reverseRecOn generalizing xs with
  | nil => exact ⟨rfl, fun i h => by simp [at'] at h⟩
  | append_singleton B b ih =>
    obtain ⟨ys, y, rfl⟩ : ∃ ys y, xs = ys ++ [y] := by
      rcases List.eq_nil_or_concat xs with h | ⟨i, y, h⟩
      · subst h; simp at hl
      · exact ⟨i, y, by simpa using h⟩
    have hl' : B.length = ys.length := by simpa using hl
    obtain ⟨h1, h2⟩ := ih hl'
    rw [pick_snoc hl']
    have hat : ∀ i, i < B.length → at' (B ++ [b]) i = at' B i := by
      intro i hi
      rw [at_lt (by simp; omega), at_lt hi, List.getElem_append_left hi]
    have hrk : ∀ i, i ≤ B.length → rk (at' (B ++ [b])) i = rk (at' B) i := fun i hi => rk_congr fun j hj => hat j (by omega)
    constructor
    · cases b <;> simp [h1, List.count_append]
    · intro i hi
      have hlt := at_eq_true_lt hi
      rw [List.length_append, List.length_singleton] at hlt
      by_cases hiB : i < B.length
      · rw [hat i hiB] at hi
        rw [hrk i (by omega)]
        have := h2 i hi
        have hr := rk_lt_of_set hi hiB
        rw [show rk (at' B) B.length = B.count true from countP_at B _ (Nat.le_refl _)] at hr
        unfold rd at this ⊢
        rw [List.getElem?_append_left (by omega), this, List.getElem?_append_left (by omega)]
      · have e : i = B.length := by omega
        subst e
        have hb : b = true := by
          rw [at_lt (by simp)] at hi
          simpa using hi
        subst hb
        rw [hrk _ (Nat.le_refl _), show rk (at' B) B.length = B.count true from countP_at B _ (Nat.le_refl _), if_pos rfl]
        unfold rd
        rw [List.getElem?_append_right (by omega), List.getElem?_append_right (by omega)]
        simp [h1, hl']

theorem rk_compose {Bm Br B : List Bool} (hsub : ∀ x, at' Br x = true → at' Bm x = true)
    (hB : ∀ i, at' B i = true ↔ ∃ x, at' Br x = true ∧ i = rk (at' Bm) x) (x : Nat) :
    rk (at' B) (rk (at' Bm) x) = rk (at' Br) x := by
  induction x with
  | zero => rfl
  | succ x ih =>
    rw [rk_succ (at' Bm), rk_succ (at' Br)]
    by_cases hm : at' Bm x = true
    · rw [if_pos hm, rk_succ, ih]
      congr 1
      by_cases hr : at' Br x = true
      · rw [if_pos hr, if_pos ((hB _).2 ⟨x, hr, rfl⟩)]
      · rw [if_neg hr, if_neg]
        intro h
        obtain ⟨y, hy, e⟩ := (hB _).1 h
        have := rk_inj hm (hsub y hy) e
        subst this
        exact hr hy
    · have hr : ¬ at' Br x = true := fun h => hm (hsub x h)
      rw [if_neg hm, if_neg hr, Nat.add_zero, ih, Nat.add_zero]

theorem invalid_u64 : invalidId + 511 < u64 := by decide

theorem markRouting_ok {E : Env fl} {mp : Mappers} {Bm Br Bw : List Bool} (hE : EnvOk E mp Bm Br Bw)
    (hsub : ∀ x, at' Br x = true → at' Bm x = true) :
    ∃ v B, markRouting mp = some v ∧ v.Rep B ∧ B.length = Bm.count true ∧
      ∀ i, at' B i = true ↔ ∃ x, at' Br x = true ∧ i = rk (at' Bm) x := by
  unfold markRouting
  rw [hE.m.base.localIdCount, hE.r.base.localIdCount]
  obtain ⟨v0, e0, h0, _⟩ := rep_new (n := Bm.count true) (by have := invalid_u64; have := hE.cm; omega) false
  obtain ⟨v, e, B, h1, h2, h3⟩ := forRange_inv (lo := 0) (hi := Br.count true) (s := v0)
    (f := fun v r => do
      let g ← mp.routing.toGlobal r
      let m ← mp.modelling.base.toLocal g
      v.set m)
    (fun r v => ∃ B, v.Rep B ∧ B.length = Bm.count true ∧ ∀ i, at' B i = true ↔ ∃ x, at' Br x = true ∧ rk (at' Br) x < r ∧ i = rk (at' Bm) x)
    (by omega) ⟨_, h0, by simp, by
      intro i
      rw [at_replicate]
      constructor
      · intro h; simp at h
      · rintro ⟨x, _, h, _⟩; omega⟩ (by
      rintro r v _ hr ⟨B, h1, h2, h3⟩
      obtain ⟨g, eg, hg1, hg2⟩ := hE.r.toGlobal hr
      have hgm := hsub g hg1
      have hlt := rk_lt_count hgm
      obtain ⟨v', ev, hv'⟩ := h1.set (x := rk (at' Bm) g) (by omega)
      refine ⟨v', ?_, _, hv', by rw [List.length_set]; exact h2, ?_⟩
      · simp only [eg, Option.bind_eq_bind, Option.bind_some, hE.m.base.toLocal hgm, ev]
      · intro i
        rw [at_set (by omega)]
        by_cases e : i = rk (at' Bm) g
        · subst e
          simp only [if_true, true_iff]
          exact ⟨g, hg1, by omega, rfl⟩
        · rw [if_neg e, h3]
          constructor
          · rintro ⟨x, hx, h, rfl⟩; exact ⟨x, hx, by omega, rfl⟩
          · rintro ⟨x, hx, h, rfl⟩
            refine ⟨x, hx, ?_, rfl⟩
            have : rk (at' Br) x ≠ r := by
              intro h'
              apply e
              rw [rk_inj hx hg1 (by omega)]
            omega)
  refine ⟨v, B, ?_, h1, h2, ?_⟩
  · simp only [e0, Option.bind_eq_bind, Option.bind_some] at e ⊢
    exact e
  · intro i
    rw [h3]
    constructor
    · rintro ⟨x, hx, _, h⟩; exact ⟨x, hx, h⟩
    · rintro ⟨x, hx, h⟩; exact ⟨x, hx, rk_lt_count hx, h⟩

/-- The coordinates of the routing nodes. -/
structure RoutingCoords (pos : Nat → fl.F × fl.F) (Br : List Bool) (la lo : List fl.F) : Prop where
  lenA : la.length = Br.count true
  lenO : lo.length = Br.count true
  lat : ∀ x, at' Br x = true → rd la (rk (at' Br) x) = some (pos x).1
  lon : ∀ x, at' Br x = true → rd lo (rk (at' Br) x) = some (pos x).2

theorem keep_ok {Bm Br B : List Bool} {v : BitVector} (hv : v.Rep B) (hl : B.length = Bm.count true)
    (hsub : ∀ x, at' Br x = true → at' Bm x = true)
    (hB : ∀ i, at' B i = true ↔ ∃ x, at' Br x = true ∧ i = rk (at' Bm) x) {la : List α} (hla : la.length = Bm.count true) :
    ∃ r, keepElementIf v la = some r ∧ r.length = Br.count true ∧ ∀ x, at' Br x = true → rd r (rk (at' Br) x) = rd la (rk (at' Bm) x) := by
  refine ⟨_, inplaceFilter_spec hv true la (by omega), ?_, ?_⟩
  · rw [(rk_pick (by omega)).1, ← show rk (at' B) B.length = B.count true from countP_at B _ (Nat.le_refl _), hl,
      ← show rk (at' Bm) (Bm.length + Br.length) = Bm.count true from countP_at Bm _ (by omega), rk_compose hsub hB]
    exact countP_at Br _ (by omega)
  · intro x hx
    rw [← rk_compose hsub hB x]
    exact (rk_pick (by omega)).2 _ ((hB _).2 ⟨x, hx, rfl⟩)

/-! ### The order -/

theorem apply_map {q : List Nat} {as as' : List MapArc} {β : Type} [Inhabited β] (hq : IsPerm q) (hl : q.length = as.length) (hl' : as'.length = as.length)
    (h : ∀ i k, rd q i = some k → rd as' k = rd as i) (f : MapArc → β) : applyInversePermutation q (as.map f) = some (as'.map f) := by
  obtain ⟨r, e, h1, h2⟩ := applyInversePermutation_spec (v := as.map f) hq (by simp; omega)
  rw [e]
  congr 1
  apply list_ext_rd (by rw [h1]; simp; omega)
  intro k hk
  rw [h1, List.length_map] at hk
  obtain ⟨i, _, hi⟩ := hq.surj (x := k) (by omega)
  rw [h2 i k hi]
  have := h i k hi
  unfold rd at this ⊢
  rw [List.getElem?_map, List.getElem?_map, this]

/-- What `sortGraph` returns: the arcs are `as'`. -/
structure GraphIs (E : Env fl) (Br : List Bool) (as' : List MapArc) (g : RoutingGraph fl) (tail : List Nat) : Prop where
  tail : tail = as'.map fun a => E.locR a.tail
  head : g.head = as'.map fun a => E.locR a.head
  geoDistance : g.geoDistance = as'.map fun a => E.dist a.seg
  way : g.way = as'.map fun a => E.locW a.way
  anti : g.anti = as'.map (·.anti)
  firstOut : invertVector (as'.map fun a => E.locR a.tail) (Br.count true) = some g.firstOut
  firstMod : g.firstMod = if E.geo = .none then [] else offsets E.geo as' (as'.length + 1)
  modLat : g.modLat = (flat E.geo as').map fun x => (E.pos x).1
  modLon : g.modLon = (flat E.geo as').map fun x => (E.pos x).2
  coords : RoutingCoords E.pos Br g.latitude g.longitude

theorem sortGraph_ok {E : Env fl} {mp : Mappers} {Bm Br Bw : List Bool} (hE : EnvOk E mp Bm Br Bw)
    (hsub : ∀ x, at' Br x = true → at' Bm x = true) {la lo : List fl.F} (hc : Coords E.pos Bm la lo) {as : List MapArc}
    (has : ∀ a ∈ as, at' Br a.tail = true ∧ at' Br a.head = true) (hb : (flat E.geo as).length < 2147483648)
    (u : σ) (rs : List TurnRestriction) :
    ∃ g tail p as', sortGraph E.geo mp (scanOf E as [] u la lo rs) = some (g, tail) ∧
      LexSortPerm (as.map fun a => E.locR a.tail) (as.map fun a => E.locR a.head) p ∧
      List.Forall₂ (fun i a => rd as i = some a) p as' ∧ as'.Perm as ∧ GraphIs E Br as' g tail ∧ g.forbiddenFrom = [] ∧ g.forbiddenTo = [] := by
  have hu : u32 = 4294967296 := rfl
  have hn : mp.routing.base.localIdCount % u32 = Br.count true := by
    rw [hE.r.base.localIdCount]
    exact Nat.mod_eq_of_lt (by have := hE.cr; have := invalid_lt; omega)
  have ht : ∀ x ∈ as.map (fun a => E.locR a.tail), x < Br.count true := by
    intro x hx
    obtain ⟨a, ha, rfl⟩ := List.mem_map.1 hx
    rw [hE.lr]; exact rk_lt_count (has a ha).1
  have hh : ∀ x ∈ as.map (fun a => E.locR a.head), x < Br.count true := by
    intro x hx
    obtain ⟨a, ha, rfl⟩ := List.mem_map.1 hx
    rw [hE.lr]; exact rk_lt_count (has a ha).2
  have hl : (as.map fun a => E.locR a.tail).length = (as.map fun a => E.locR a.head).length := by simp
  obtain ⟨p0, a1, q0, a2, q, p, e1, e2, e3, e4, e5, h0, h1, h2, h3, h4⟩ := lex_inverse hl ht hh
  have hq := isPerm_iff_perm.2 h0
  have hpl : p.length = as.length := by rw [h2.2.1, List.length_map]
  have hql : q.length = as.length := by rw [← h1.1, hpl]
  obtain ⟨as', ea, hla, hma⟩ := applyInversePermutation_spec (v := as) hq hql
  have hma' : ∀ i k, rd p i = some k → rd as' i = rd as k := fun i k h => hma k i ((h1.2 i k).1 h)
  have hp := isPerm_iff_perm.2 h2.1
  have hF : List.Forall₂ (fun i a => rd as i = some a) p as' := by
    rw [List.forall₂_iff_get]
    refine ⟨by omega, ?_⟩
    intro i hi1 hi2
    have := hma' i p[i] (rd_lt hi1)
    rw [rd_lt hi2] at this
    exact this.symm
  have hperm : as'.Perm as := perm_of_rd hq hql hla hma
  have e6 : a2 = as'.map fun a => E.locR a.tail := by
    apply list_ext_rd (by rw [h3]; simp; omega)
    intro i hi
    rw [h3, List.length_map] at hi
    obtain ⟨k, hk, _⟩ := hp.rd (i := i) (by omega)
    rw [h4 i k hk]
    have := hma' i k hk
    unfold rd at this ⊢
    rw [List.getElem?_map, List.getElem?_map, this]
  have es : computeInverseSortPermutationFirstByTailThenByHeadAndApplySortToTail (Br.count true) (as.map fun a => E.locR a.tail)
      (as.map fun a => E.locR a.head) = some (q, a2) := by
    simp [computeInverseSortPermutationFirstByTailThenByHeadAndApplySortToTail,
      computeInverseSortPermutationFirstByLeftThenByRightAndApplySortToLeft, e1, e2, e3, e4, e5,
      lex_sorted hl h2 h3 h4]
  have hsorted := (isSortedUsingLess_iff _).1 (lex_sorted hl h2 h3 h4)
  obtain ⟨fo, efo, _⟩ := invertVector_spec (v := a2) (n := Br.count true) hsorted (by
    rw [e6]
    intro x hx
    obtain ⟨a, ha, rfl⟩ := List.mem_map.1 hx
    exact ht _ (List.mem_map.2 ⟨a, hperm.mem_iff.1 ha, rfl⟩))
  obtain ⟨v, B, ev, hv, hBl, hB⟩ := markRouting_ok hE hsub
  obtain ⟨la', ela, lla, hla'⟩ := keep_ok hv hBl hsub hB hc.lenA
  obtain ⟨lo', elo, llo, hlo'⟩ := keep_ok hv hBl hsub hB hc.lenO
  have eg := sortGeometry_ok (E := E) hb h0 h1 hF hperm u la lo rs
  refine ⟨⟨fo, as'.map fun a => E.locR a.head, as'.map fun a => E.locW a.way, as'.map fun a => E.dist a.seg, la', lo', as'.map (·.anti), [], [],
    if E.geo = .none then [] else offsets E.geo as' (as'.length + 1), (flat E.geo as').map fun x => (E.pos x).1,
    (flat E.geo as').map fun x => (E.pos x).2⟩, a2, p, as', ?_, h2, hF, hperm, ?_, rfl, rfl⟩
  · unfold sortGraph
    simp only [hn, eg, Option.bind_eq_bind]
    rw [show (scanOf E as [] u la lo rs).tail = as.map fun a => E.locR a.tail from rfl, show (scanOf E as [] u la lo rs).head = as.map fun a => E.locR a.head from rfl,
      show (scanOf E as [] u la lo rs).geoDistance = as.map fun a => E.dist a.seg from rfl, show (scanOf E as [] u la lo rs).way = as.map fun a => E.locW a.way from rfl,
      show (scanOf E as [] u la lo rs).anti = as.map (·.anti) from rfl, show (scanOf E as [] u la lo rs).lat = la from rfl, show (scanOf E as [] u la lo rs).lon = lo from rfl]
    simp only [es, Option.bind_some, apply_map hq hql hla hma, efo, ev, ela, elo]
    rw [eg]; rfl
  · refine ⟨e6, rfl, rfl, rfl, rfl, by rw [← e6]; exact efo, rfl, rfl, rfl, lla, llo, ?_, ?_⟩
    · intro x hx
      rw [hla' x hx]; exact hc.lat x (hsub x hx)
    · intro x hx
      rw [hlo' x hx]; exact hc.lon x (hsub x hx)

end RK.Osm
