import Verif.Spec.OsmSimple
import Verif.Model.OsmSimple
import Verif.Proof.OsmGraph
import Verif.Proof.OsmRestriction
/-! # Lemmas about the functions of osm_simple.cpp -/
namespace RK.Osm
open _root_.Spec RK.Spec BitVector

variable {σ : Type}

/-- A callback which writes a value for each way into a list. -/
theorem graphArcs_values {marked routing : Nat → Bool} {localId : Nat → Nat} {cb : WayCallback (List Nat)} {use : TagLookup → Bool}
    {val : TagLookup → Nat} {dir : TagLookup → WayDirection} (hcb : ∀ u id w t, cb u id w t = (wr u w (val t)).bind fun u => some (u, dir t))
    {items : List OsmItem} (huniq : UniqueWays items) (hg : ∀ i ∈ items, i.GoodIds)
    (hmark : ∀ id nodes tags, OsmItem.way id nodes tags ∈ items → (marked id.toNat = true ↔ 2 ≤ nodes.length ∧ use (lookup tags) = true))
    (hinj : ∀ x y, marked x = true → marked y = true → localId x = localId y → x = y) {n : Nat}
    (hlt : ∀ x, marked x = true → localId x < n) :
    ∀ (rest done : List OsmItem), items = done ++ rest → ∀ {u : List Nat}, u.length = n →
    (∀ id nodes tags, OsmItem.way id nodes tags ∈ done → marked id.toNat = true → u[localId id.toNat]? = some (val (lookup tags))) →
    ∃ u', graphArcs marked routing localId (callbackOf cb) u rest = some (u', rest.flatMap fun i => match i with
      | .way id nodes tags =>
        if 2 ≤ nodes.length ∧ use (lookup tags) then
          arcsOfWay routing (dirForwards (dir (lookup tags))) (dirBackwards (dir (lookup tags))) id.toNat (nodes.map Int.toNat)
        else []
      | _ => []) ∧ u'.length = n ∧
      ∀ id nodes tags, OsmItem.way id nodes tags ∈ items → marked id.toNat = true → u'[localId id.toNat]? = some (val (lookup tags)) := by
  intro rest
  induction rest with
  | nil =>
    intro done hd u hn hu
    refine ⟨u, rfl, hn, ?_⟩
    rw [hd, List.append_nil]
    exact hu
  | cons i rest ih =>
    intro done hd u hn hu
    have hd' : items = (done ++ [i]) ++ rest := by rw [hd]; simp
    have skip : (∀ id nodes tags, i = .way id nodes tags → marked id.toNat = false) →
        ∀ id nodes tags, OsmItem.way id nodes tags ∈ done ++ [i] → marked id.toNat = true → u[localId id.toNat]? = some (val (lookup tags)) := by
      intro h id nodes tags hm hk
      rcases List.mem_append.1 hm with hm | hm
      · exact hu id nodes tags hm hk
      · rw [List.mem_singleton] at hm
        rw [h id nodes tags hm.symm] at hk
        cases hk
    cases i with
    | way id nodes tags =>
      have hi : OsmItem.way id nodes tags ∈ items := by rw [hd]; simp
      rw [graphArcs, List.flatMap_cons]
      by_cases hk : marked id.toNat = true
      · have hb := (hmark id nodes tags hi).1 hk
        have hw : localId id.toNat < u.length := by rw [hn]; exact hlt _ hk
        obtain ⟨u', e, h1, h2⟩ := ih _ hd' (u := u.set (localId id.toNat) (val (lookup tags))) (by simp [hn]) (by
          intro id' nodes' tags' hm hk'
          by_cases hl : localId id'.toNat = localId id.toNat
          · have := hinj _ _ hk' hk hl
            have hm' : OsmItem.way id' nodes' tags' ∈ items := by rw [hd']; exact List.mem_append_left _ hm
            have g1 := (hg _ hm').1
            have g2 := (hg _ hi).1
            have : id' = id := by omega
            subst this
            rw [(huniq _ _ _ _ _ hm' hi).2, List.getElem?_set_self hw]
          · rw [List.getElem?_set_ne (Ne.symm hl)]
            rcases List.mem_append.1 hm with hm | hm
            · exact hu _ _ _ hm hk'
            · rw [List.mem_singleton] at hm
              cases hm
              exact absurd rfl hl)
        refine ⟨u', ?_, h1, h2⟩
        rw [if_pos hk]
        simp only [callbackOf, hcb, wr_lt hw, Option.bind_some, Option.map_some, e, if_pos hb]
      · have hb : ¬ (2 ≤ nodes.length ∧ use (lookup tags) = true) := fun h => hk ((hmark id nodes tags hi).2 h)
        rw [if_neg hk]
        obtain ⟨u', e, h1, h2⟩ := ih _ hd' hn (skip (by
          intro id' nodes' tags' he
          cases he
          exact Bool.not_eq_true _ ▸ hk))
        refine ⟨u', ?_, h1, h2⟩
        rw [e]
        simp only [if_neg hb, List.nil_append]
    | _ =>
      obtain ⟨u', e, h1, h2⟩ := ih _ hd' hn (skip (by intro _ _ _ he; cases he))
      exact ⟨u', e, h1, h2⟩

/-- A callback without state. -/
theorem graphArcs_pure {marked routing : Nat → Bool} {localId : Nat → Nat} {cb : WayCallback Unit} {use : TagLookup → Bool}
    {dir : TagLookup → WayDirection} (hcb : ∀ u id w t, cb u id w t = some ((), dir t))
    {items : List OsmItem}
    (hmark : ∀ id nodes tags, OsmItem.way id nodes tags ∈ items → (marked id.toNat = true ↔ 2 ≤ nodes.length ∧ use (lookup tags) = true)) :
    graphArcs marked routing localId (callbackOf cb) () items = some ((), items.flatMap fun i => match i with
      | .way id nodes tags =>
        if 2 ≤ nodes.length ∧ use (lookup tags) then
          arcsOfWay routing (dirForwards (dir (lookup tags))) (dirBackwards (dir (lookup tags))) id.toNat (nodes.map Int.toNat)
        else []
      | _ => []) := by
  induction items with
  | nil => rfl
  | cons i items ih =>
    have ih := ih fun id nodes tags h => hmark id nodes tags (List.mem_cons_of_mem _ h)
    cases i with
    | way id nodes tags =>
      have hm := hmark id nodes tags (List.mem_cons_self ..)
      rw [graphArcs, List.flatMap_cons]
      by_cases hk : marked id.toNat = true
      · rw [if_pos hk]
        simp only [callbackOf, hcb, Option.map_some, ih, if_pos (hm.1 hk)]
      · have hb : ¬ (2 ≤ nodes.length ∧ use (lookup tags) = true) := fun h => hk (hm.2 h)
        rw [if_neg hk, ih]
        simp only [if_neg hb, List.nil_append]
    | _ => exact ih

/-- `decodeRestrictions` never fails. -/
theorem decode_total (relation : BitVec 64) (members : List Member) (t : Tags) (hl : members.length < invalidId) (hty : ∀ m ∈ members, m.1 < 3) :
    ∃ l, decodeRestrictions relation members t = some l := by
  by_cases h : ∃ r c d, t b!"restriction" = some r ∧ (r, c, d) ∈ restrictionTexts
  · obtain ⟨r, c, d, h1, h2⟩ := h
    exact ⟨_, decode_ok relation members t hl hty c d r h1 h2⟩
  · exact ⟨_, decode_none relation members t fun r hr c d hm => h ⟨r, c, d, hr, hm⟩⟩

theorem relations_total {items : List OsmItem} (h : GoodMembers items) : ∃ rs, relationData (decoderOf decodeRestrictions) items = some rs := by
  induction items with
  | nil => exact ⟨_, rfl⟩
  | cons i items ih =>
    obtain ⟨rs, e⟩ := ih fun id members tags hm => h id members tags (List.mem_cons_of_mem _ hm)
    cases i with
    | relation id members tags =>
      have hm := h id members tags (List.mem_cons_self ..)
      obtain ⟨l, el⟩ := decode_total (BitVec.ofInt 64 id) (members.map fun m => (m.1, BitVec.ofInt 64 m.2.1, m.2.2)) (lookup tags) (by
        rw [List.length_map]; exact hm.1) (by
        intro m hm'
        obtain ⟨m', hm'', rfl⟩ := List.mem_map.1 hm'
        exact hm.2 m' hm'')
      have el : decoderOf decodeRestrictions id members (lookup tags) = some l := el
      refine ⟨l ++ rs, ?_⟩
      rw [relationData, el, e]
    | _ => exact ⟨rs, e⟩

theorem arcComfort_ok {comfort way : List Nat} (hw : ∀ w ∈ way, w < comfort.length) :
    arcComfort comfort way way.length = some (way.map fun w => comfort.getD w 0) := by
  obtain ⟨l, e, h1, h2⟩ := forRange_inv (f := fun l a => do
      let w ← rd way a
      let c ← rd comfort w
      wr l a c) (fun i l => l.length = way.length ∧ ∀ a, a < i → ∀ w, way[a]? = some w → l[a]? = some (comfort.getD w 0)) (Nat.zero_le way.length)
      (s := List.replicate way.length 0) ⟨by simp, fun a ha => by omega⟩ (by
    intro i l _ hi ⟨hl, hinv⟩
    obtain ⟨w, hwi⟩ := rd_isSome (v := way) hi
    obtain ⟨c, hc⟩ := rd_isSome (v := comfort) (hw w (List.mem_of_getElem? hwi))
    have hi' : i < l.length := by omega
    refine ⟨l.set i c, by simp only [hwi, hc, Option.bind_eq_bind, Option.bind_some, wr_lt hi'], by simp [hl], ?_⟩
    intro a ha w' hw'
    by_cases hai : a = i
    · subst hai
      have : w' = w := by
        have hwi : way[a]? = some w := hwi
        rw [hwi] at hw'; cases hw'; rfl
      subst this
      rw [List.getElem?_set_self hi', List.getD_eq_getElem?_getD, show comfort[w']? = some c from hc]; rfl
    · rw [List.getElem?_set_ne (by omega)]
      exact hinv a (by omega) w' hw')
  unfold arcComfort
  rw [e]
  congr 1
  apply List.ext_getElem?
  intro a
  rw [List.getElem?_map]
  by_cases ha : a < way.length
  · rw [List.getElem?_eq_getElem ha]
    exact h2 a ha _ (List.getElem?_eq_getElem ha)
  · rw [List.getElem?_eq_none (by omega), List.getElem?_eq_none (by omega)]; rfl

end RK.Osm
