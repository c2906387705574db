import Verif.Model.ChGraph
import Verif.Proof.Fn
import Mathlib.Data.List.Nodup
import Mathlib.Data.List.Basic
/-! Helper lemmas about the graph used for contraction. -/
namespace RK

structure Info where
  weight : Nat
  hop : Nat
  mid : Nat
deriving DecidableEq

def ChArc.info (a : ChArc) : Info := ⟨a.weight, a.hop, a.mid⟩
def mkArc (y : Nat) (i : Info) : ChArc := ⟨y, i.weight, i.hop, i.mid⟩

@[simp] theorem mkArc_node (y : Nat) (i : Info) : (mkArc y i).node = y := rfl
@[simp] theorem mkArc_info (y : Nat) (i : Info) : (mkArc y i).info = i := rfl
theorem mkArc_eta (a : ChArc) : mkArc a.node a.info = a := rfl

def upd (f : Nat → Option Info) (y : Nat) (i : Option Info) : Nat → Option Info :=
  fun z => if z = y then i else f z

/-- The adjacency list `l` holds exactly the arcs `f`. -/
structure AdjRep (l : List ChArc) (f : Nat → Option Info) : Prop where
  nodup : (l.map (·.node)).Nodup
  mem : ∀ a, a ∈ l ↔ f a.node = some a.info

namespace AdjRep
variable {l : List ChArc} {f : Nat → Option Info}

theorem mem_mk (h : AdjRep l f) {y : Nat} {i : Info} : mkArc y i ∈ l ↔ f y = some i := by
  rw [h.mem]; rfl

theorem get_inj (h : AdjRep l f) {i j : Nat} {a b : ChArc} (hi : rd l i = some a) (hj : rd l j = some b)
    (hab : a.node = b.node) : i = j := by
  obtain ⟨hi1, hi2⟩ := rd_eq_some.1 hi
  obtain ⟨hj1, hj2⟩ := rd_eq_some.1 hj
  have := (List.Nodup.getElem_inj_iff h.nodup (i := i) (j := j) (hi := by simpa using hi1)
    (hj := by simpa using hj1)).1 (by simp [hi2, hj2, hab])
  exact this

theorem find_some (h : AdjRep l f) {y : Nat} {i : Info} (hy : f y = some i) :
    ∃ j, l.findIdx? (fun a => a.node == y) = some j ∧ rd l j = some (mkArc y i) := by
  have hm := h.mem_mk.2 hy
  cases hf : l.findIdx? (fun a => a.node == y) with
  | none =>
    exfalso
    rw [List.findIdx?_eq_none_iff] at hf
    have := hf _ hm
    simp at this
  | some j =>
    refine ⟨j, rfl, ?_⟩
    rw [List.findIdx?_eq_some_iff_getElem] at hf
    obtain ⟨hj, hp, _⟩ := hf
    have hn : l[j].node = y := by simpa using hp
    obtain ⟨k, hk, ek⟩ := List.getElem_of_mem hm
    have := h.get_inj (rd_lt hj) (rd_lt hk) (by rw [hn, ek]; rfl)
    subst this
    rw [rd_lt hj, ek]

theorem find_none (h : AdjRep l f) {y : Nat} (hy : f y = none) :
    l.findIdx? (fun a => a.node == y) = none := by
  rw [List.findIdx?_eq_none_iff]
  intro a ha
  rw [h.mem] at ha
  by_contra hc
  have : a.node = y := by simpa using hc
  rw [this, hy] at ha
  cases ha

theorem set (h : AdjRep l f) {y j : Nat} {i i' : Info} (hj : rd l j = some (mkArc y i)) :
    AdjRep (l.set j (mkArc y i')) (upd f y (some i')) := by
  have hlt := rd_some_lt hj
  constructor
  · rw [List.map_set]
    have : (l.map (·.node)).set j y = l.map (·.node) := by
      apply list_ext_rd (by simp)
      intro k hk
      rw [rd_set (by simpa using hlt)]
      split
      · rename_i hkj
        subst hkj
        unfold rd at hj ⊢
        simp [hj]
      · rfl
    rw [mkArc_node, this]
    exact h.nodup
  · intro a
    rw [List.mem_iff_getElem?]
    constructor
    · rintro ⟨k, hk⟩
      change rd _ k = _ at hk
      rw [rd_set hlt] at hk
      split at hk
      · cases hk; simp [upd]
      · rename_i hkj
        have hne : a.node ≠ y := fun he => hkj (h.get_inj hk hj (by rw [he]; rfl))
        rw [upd, if_neg hne, ← h.mem]
        exact List.mem_of_getElem? hk
    · intro ha
      unfold upd at ha
      split at ha
      · rename_i he
        cases ha
        refine ⟨j, ?_⟩
        change rd _ j = _
        rw [rd_set hlt, if_pos rfl, ← he]
        rfl
      · rename_i hne
        rw [← h.mem] at ha
        obtain ⟨k, hk, ek⟩ := List.getElem_of_mem ha
        refine ⟨k, ?_⟩
        change rd _ k = _
        rw [rd_set hlt, if_neg]
        · rw [rd_lt hk, ek]
        · intro hkj
          subst hkj
          rw [rd_lt hk, ek] at hj
          cases hj
          exact hne rfl

theorem push (h : AdjRep l f) {y : Nat} {i : Info} (hy : f y = none) :
    AdjRep (l ++ [mkArc y i]) (upd f y (some i)) := by
  have hnot : ∀ a ∈ l, a.node ≠ y := by
    intro a ha he
    rw [h.mem, he, hy] at ha
    cases ha
  constructor
  · rw [List.map_append, List.nodup_append]
    refine ⟨h.nodup, by simp, ?_⟩
    intro a ha b hb
    rw [List.mem_map] at ha
    obtain ⟨c, hc, rfl⟩ := ha
    simp at hb
    subst hb
    exact hnot c hc
  · intro a
    rw [List.mem_append, List.mem_singleton]
    unfold upd
    by_cases hn : a.node = y
    · rw [if_pos hn]
      constructor
      · rintro (ha | rfl)
        · exact absurd hn (hnot a ha)
        · rfl
      · intro ha
        cases ha
        right
        rw [← hn]; rfl
    · rw [if_neg hn, ← h.mem]
      constructor
      · rintro (ha | rfl)
        · exact ha
        · exact absurd rfl hn
      · exact Or.inl

theorem erase (h : AdjRep l f) (y : Nat) :
    AdjRep (l.eraseP fun b => b.node == y) (upd f y none) := by
  have hsub : (l.eraseP fun b => b.node == y).Sublist l := List.eraseP_sublist
  have hnd : ((l.eraseP fun b => b.node == y).map (·.node)).Nodup := h.nodup.sublist (hsub.map _)
  refine ⟨hnd, ?_⟩
  intro a
  unfold upd
  by_cases hn : a.node = y
  · rw [if_pos hn]
    constructor
    · intro ha
      exfalso
      -- the erased element is the only one with this node
      obtain ⟨b, l1, l2, hb1, hb2, hb3, hb4⟩ := List.exists_of_eraseP (p := fun b : ChArc => b.node == y)
        (hsub.subset ha) (by simpa using hn)
      rw [hb4] at ha
      have hnd' := h.nodup
      rw [hb3, List.map_append, List.map_cons] at hnd'
      rw [List.nodup_append] at hnd'
      have hby : b.node = y := by simpa using hb2
      rw [List.mem_append] at ha
      rcases ha with ha | ha
      · exact hb1 a ha (by simpa using hn)
      · have := (List.nodup_cons.1 hnd'.2.1).1
        apply this
        rw [hby, ← hn]
        exact List.mem_map_of_mem ha
    · intro ha; cases ha
  · rw [if_neg hn, ← h.mem]
    exact List.mem_eraseP_of_neg (by simpa using hn)

theorem any (h : AdjRep l f) {y : Nat} {i : Info} (hy : f y = some i) :
    (l.any fun b => b.node == y) = true := by
  rw [List.any_eq_true]
  exact ⟨mkArc y i, h.mem_mk.2 hy, by simp⟩

theorem nil : AdjRep [] (fun _ => none) := ⟨by simp, by simp⟩

theorem congr (h : AdjRep l f) {f' : Nat → Option Info} (he : ∀ y, f' y = f y) : AdjRep l f' := by
  have : f' = f := funext he
  rw [this]; exact h

theorem eq_nil (h : AdjRep l f) (hf : ∀ y, f y = none) : l = [] := by
  cases l with
  | nil => rfl
  | cons a l =>
    have := (h.mem a).1 (by simp)
    rw [hf] at this; cases this

end AdjRep

abbrev ArcMap := Nat → Nat → Option Info

def upd2 (A : ArcMap) (x y : Nat) (i : Option Info) : ArcMap :=
  fun u v => if u = x ∧ v = y then i else A u v

/-- `g` is a graph with `n` nodes and the arcs `A`. -/
structure GRep (g : ChGraph) (n : Nat) (A : ArcMap) : Prop where
  lenOut : g.out.length = n
  lenIn : g.inn.length = n
  lenLevel : g.level.length = n
  out : ∀ x, x < n → ∃ l, rd g.out x = some l ∧ AdjRep l (fun y => A x y)
  inn : ∀ y, y < n → ∃ l, rd g.inn y = some l ∧ AdjRep l (fun x => A x y)
  dom : ∀ x y i, A x y = some i → x < n ∧ y < n ∧ x ≠ y

namespace ChGraph

/-- The arc map after adding a shortcut. -/
def addMap (A : ArcMap) (x y : Nat) (i : Info) : ArcMap :=
  match A x y with
  | none => upd2 A x y (some i)
  | some j => if j.weight ≤ i.weight then A else upd2 A x y (some i)

theorem addMap_cases (A : ArcMap) (x y : Nat) (i : Info) :
    (∃ j, A x y = some j ∧ j.weight ≤ i.weight ∧ addMap A x y i = A) ∨
    ((∀ j, A x y = some j → i.weight < j.weight) ∧ addMap A x y i = upd2 A x y (some i)) := by
  unfold addMap
  cases h : A x y with
  | none => exact Or.inr ⟨fun j hj => (by cases hj), rfl⟩
  | some j =>
    by_cases hle : j.weight ≤ i.weight
    · exact Or.inl ⟨j, rfl, hle, by simp [hle]⟩
    · refine Or.inr ⟨?_, by simp [hle]⟩
      intro j' hj'; cases hj'; omega

theorem reduceArcIfExists_spec {w hop mid x y : Nat} {lx ly : List ChArc} {f g : Nat → Option Info}
    (hx : AdjRep lx f) (hy : AdjRep ly g) (hfg : f y = g x) :
    ∃ r lx' ly', reduceArcIfExists w hop mid x lx y ly = some (r, lx', ly') ∧
      ((r = false ∧ f y = none ∧ lx' = lx ∧ ly' = ly) ∨
       (r = true ∧ ∃ j, f y = some j ∧ j.weight ≤ w ∧ lx' = lx ∧ ly' = ly) ∨
       (r = true ∧ ∃ j, f y = some j ∧ w < j.weight ∧ AdjRep lx' (upd f y (some ⟨w, hop, mid⟩)) ∧
         AdjRep ly' (upd g x (some ⟨w, hop, mid⟩)))) := by
  unfold reduceArcIfExists
  cases hf : f y with
  | none =>
    rw [hx.find_none hf]
    exact ⟨_, _, _, rfl, Or.inl ⟨rfl, rfl, rfl, rfl⟩⟩
  | some i =>
    obtain ⟨j, hj, hr⟩ := hx.find_some hf
    rw [hj]
    simp only [hr, Option.bind_eq_bind, Option.bind_some]
    by_cases hle : i.weight ≤ w
    · rw [if_pos (by simpa [mkArc] using hle)]
      exact ⟨_, _, _, rfl, Or.inr (Or.inl ⟨rfl, i, rfl, hle, rfl, rfl⟩)⟩
    · rw [if_neg (by simpa [mkArc] using hle)]
      obtain ⟨k, hk, hs⟩ := hy.find_some (hfg ▸ hf)
      rw [hk]
      simp only [hs, Option.bind_some, wr_lt (rd_some_lt hr), wr_lt (rd_some_lt hs)]
      refine ⟨_, _, _, rfl, Or.inr (Or.inr ⟨rfl, i, rfl, by omega, ?_, ?_⟩)⟩
      · exact hx.set (i' := ⟨w, hop, mid⟩) hr
      · exact hy.set (i' := ⟨w, hop, mid⟩) hs

theorem reduceEither_spec {w hop mid x y : Nat} {lx ly : List ChArc} {f g : Nat → Option Info}
    (hx : AdjRep lx f) (hy : AdjRep ly g) (hfg : f y = g x) :
    ∃ r lx' ly', reduceEither w hop mid x y lx ly = some (r, lx', ly') ∧
      ((r = false ∧ f y = none ∧ lx' = lx ∧ ly' = ly) ∨
       (r = true ∧ ∃ j, f y = some j ∧ j.weight ≤ w ∧ lx' = lx ∧ ly' = ly) ∨
       (r = true ∧ ∃ j, f y = some j ∧ w < j.weight ∧ AdjRep lx' (upd f y (some ⟨w, hop, mid⟩)) ∧
         AdjRep ly' (upd g x (some ⟨w, hop, mid⟩)))) := by
  unfold reduceEither
  split
  · exact reduceArcIfExists_spec hx hy hfg
  · obtain ⟨r, ly', lx', e, h⟩ := reduceArcIfExists_spec (w := w) (hop := hop) (mid := mid) hy hx hfg.symm
    refine ⟨r, lx', ly', by rw [e]; rfl, ?_⟩
    rcases h with ⟨h1, h2, h3, h4⟩ | ⟨h1, j, h2, h3, h4, h5⟩ | ⟨h1, j, h2, h3, h4, h5⟩
    · exact Or.inl ⟨h1, hfg ▸ h2, h4, h3⟩
    · exact Or.inr (Or.inl ⟨h1, j, hfg ▸ h2, h3, h5, h4⟩)
    · exact Or.inr (Or.inr ⟨h1, j, hfg ▸ h2, h3, h5, h4⟩)

theorem addArc_spec {g : ChGraph} {n : Nat} {A : ArcMap} (h : GRep g n A) {x y w hop mid : Nat}
    (hx : x < n) (hy : y < n) (hxy : x ≠ y) :
    ∃ g', addArcOrReduceArcWeight g x mid y w hop = some g' ∧ GRep g' n (addMap A x y ⟨w, hop, mid⟩) ∧
      (∀ u, u ≠ x → rd g'.out u = rd g.out u) ∧ (∀ v, v ≠ y → rd g'.inn v = rd g.inn v) ∧
      g'.level = g.level := by
  obtain ⟨lx, ex, hlx⟩ := h.out x hx
  obtain ⟨ly, ey, hly⟩ := h.inn y hy
  obtain ⟨r, lx', ly', er, hr⟩ := reduceEither_spec (w := w) (hop := hop) (mid := mid) (x := x) (y := y)
    hlx hly rfl
  -- the new lists
  have key : ∃ nx ny, (if r then lx' else lx' ++ [⟨y, w, hop, mid⟩]) = nx ∧
      (if r then ly' else ly' ++ [⟨x, w, hop, mid⟩]) = ny ∧
      AdjRep nx (fun v => addMap A x y ⟨w, hop, mid⟩ x v) ∧
      AdjRep ny (fun u => addMap A x y ⟨w, hop, mid⟩ u y) := by
    refine ⟨_, _, rfl, rfl, ?_⟩
    rcases addMap_cases A x y ⟨w, hop, mid⟩ with ⟨j, hj, hjw, he⟩ | ⟨hj, he⟩
    · rw [he]
      rcases hr with ⟨h1, h2, h3, h4⟩ | ⟨h1, j', h2, h3, h4, h5⟩ | ⟨h1, j', h2, h3, h4, h5⟩
      · rw [hj] at h2; cases h2
      · subst h1 h4 h5
        exact ⟨hlx, hly⟩
      · rw [hj] at h2; cases h2; simp only at hjw; omega
    · have e1 : ∀ v, addMap A x y ⟨w, hop, mid⟩ x v = upd (fun y => A x y) y (some ⟨w, hop, mid⟩) v := by
        intro v; rw [he]; unfold upd2 upd; simp
      have e2 : ∀ u, addMap A x y ⟨w, hop, mid⟩ u y = upd (fun x => A x y) x (some ⟨w, hop, mid⟩) u := by
        intro u; rw [he]; unfold upd2 upd; simp
      rcases hr with ⟨h1, h2, h3, h4⟩ | ⟨h1, j', h2, h3, h4, h5⟩ | ⟨h1, j', h2, h3, h4, h5⟩
      · subst h1 h3 h4
        exact ⟨(hlx.push (i := ⟨w, hop, mid⟩) h2).congr e1, (hly.push (i := ⟨w, hop, mid⟩) h2).congr e2⟩
      · have := hj _ h2; simp only at this; omega
      · subst h1
        exact ⟨h4.congr e1, h5.congr e2⟩
  obtain ⟨nx, ny, enx, eny, hnx, hny⟩ := key
  have hxl : x < g.out.length := by rw [h.lenOut]; exact hx
  have hyl : y < g.inn.length := by rw [h.lenIn]; exact hy
  have hdiff : ∀ u v, ¬ (u = x ∧ v = y) → addMap A x y ⟨w, hop, mid⟩ u v = A u v := by
    intro u v huv
    rcases addMap_cases A x y ⟨w, hop, mid⟩ with ⟨j, hj, hjw, he⟩ | ⟨hj, he⟩
    · rw [he]
    · rw [he, upd2, if_neg huv]
  refine ⟨⟨g.out.set x nx, g.inn.set y ny, g.level⟩, ?_, ?_, ?_, ?_, rfl⟩
  · unfold addArcOrReduceArcWeight
    simp only [show decide (x ≠ y) = true from by simp [hxy], check_true, Option.bind_eq_bind,
      Option.bind_some, ex, ey, er, enx, eny, wr_lt hxl, wr_lt hyl]
  · refine ⟨by simp [h.lenOut], by simp [h.lenIn], h.lenLevel, ?_, ?_, ?_⟩
    · intro u hu
      simp only [rd_set hxl]
      by_cases hux : u = x
      · rw [if_pos hux]
        exact ⟨nx, rfl, by rw [hux]; exact hnx⟩
      · rw [if_neg hux]
        obtain ⟨l, el, hl⟩ := h.out u hu
        exact ⟨l, el, hl.congr fun v => hdiff u v (fun hc => hux hc.1)⟩
    · intro v hv
      simp only [rd_set hyl]
      by_cases hvy : v = y
      · rw [if_pos hvy]
        exact ⟨ny, rfl, by rw [hvy]; exact hny⟩
      · rw [if_neg hvy]
        obtain ⟨l, el, hl⟩ := h.inn v hv
        exact ⟨l, el, hl.congr fun u => hdiff u v (fun hc => hvy hc.2)⟩
    · intro u v i hi
      by_cases huv : u = x ∧ v = y
      · rw [huv.1, huv.2]; exact ⟨hx, hy, hxy⟩
      · rw [hdiff u v huv] at hi
        exact h.dom u v i hi
  · intro u hu
    simp only [rd_set hxl, if_neg hu]
  · intro v hv
    simp only [rd_set hyl, if_neg hv]

theorem removeBackArcs_spec (x n : Nat) : ∀ (ox : List ChArc) (inn : List (List ChArc))
    (B : Nat → Nat → Option Info), (ox.map (·.node)).Nodup → inn.length = n →
    (∀ a ∈ ox, a.node < n ∧ ∃ i, B a.node x = some i) →
    (∀ y, y < n → ∃ l, rd inn y = some l ∧ AdjRep l (B y)) →
    ∃ inn', removeBackArcs x ox inn = some inn' ∧ inn'.length = n ∧
      (∀ y, y ∉ ox.map (·.node) → rd inn' y = rd inn y) ∧
      (∀ y, y < n → ∃ l, rd inn' y = some l ∧
        AdjRep l (if y ∈ ox.map (·.node) then upd (B y) x none else B y))
  | [], inn, B, _, hl, _, hr => ⟨inn, rfl, hl, fun _ _ => rfl, by simpa using hr⟩
  | a :: ox, inn, B, hnd, hl, ha, hr => by
    obtain ⟨han, i, hi⟩ := ha a (by simp)
    obtain ⟨l, el, hl'⟩ := hr a.node han
    have hlt : a.node < inn.length := by omega
    rw [List.map_cons, List.nodup_cons] at hnd
    let inn1 := inn.set a.node (l.eraseP fun b => b.node == x)
    let B1 : Nat → Nat → Option Info := fun y => if y = a.node then upd (B y) x none else B y
    obtain ⟨inn', e, h1, h2, h3⟩ := removeBackArcs_spec x n ox inn1 B1 hnd.2 (by simp [inn1, hl])
      (by
        intro b hb
        obtain ⟨h1, j, h2⟩ := ha b (by simp [hb])
        refine ⟨h1, j, ?_⟩
        have : b.node ≠ a.node := fun he => hnd.1 (by rw [← he]; exact List.mem_map_of_mem hb)
        simp only [B1, if_neg this]
        exact h2)
      (by
        intro y hy
        simp only [inn1, B1, rd_set hlt]
        by_cases hya : y = a.node
        · rw [if_pos hya]
          refine ⟨_, rfl, ?_⟩
          rw [if_pos hya, hya]
          exact hl'.erase x
        · rw [if_neg hya, if_neg hya]
          exact hr y hy)
    refine ⟨inn', ?_, h1, ?_, ?_⟩
    · unfold removeBackArcs forEach
      simp only [el, Option.bind_eq_bind, Option.bind_some, hl'.any hi, check_true, wr_lt hlt]
      exact e
    · intro y hy
      simp only [List.map_cons, List.mem_cons, not_or] at hy
      rw [h2 y hy.2]
      simp only [inn1, rd_set hlt, if_neg hy.1]
    · intro y hy
      obtain ⟨l', el', hl''⟩ := h3 y hy
      refine ⟨l', el', ?_⟩
      by_cases hya : y = a.node
      · have hno : y ∉ ox.map (·.node) := by rw [hya]; exact hnd.1
        rw [if_neg hno] at hl''
        rw [if_pos (by simp [hya])]
        simp only [B1, if_pos hya] at hl''
        exact hl''
      · simp only [B1, if_neg hya] at hl''
        by_cases hyo : y ∈ ox.map (·.node)
        · rw [if_pos hyo] at hl''
          rw [if_pos (by rw [List.map_cons]; exact List.mem_cons_of_mem _ hyo)]
          exact hl''
        · rw [if_neg hyo] at hl''
          rw [if_neg (by rw [List.map_cons, List.mem_cons]; rintro (h | h); exact hya h; exact hyo h)]
          exact hl''

/-- The arc map without the arcs at `x`. -/
def delMap (A : ArcMap) (x : Nat) : ArcMap := fun u v => if u = x ∨ v = x then none else A u v

theorem removeAll_spec {g : ChGraph} {n : Nat} {A : ArcMap} (h : GRep g n A) {x : Nat} (hx : x < n) :
    ∃ g', removeAllIncidentArcs g x = some g' ∧ GRep g' n (delMap A x) ∧ g'.level = g.level := by
  obtain ⟨ox, eo, ho⟩ := h.out x hx
  obtain ⟨ix, ei, hi⟩ := h.inn x hx
  have hmo : ∀ y, y ∈ ox.map (·.node) ↔ ∃ i, A x y = some i := by
    intro y
    rw [List.mem_map]
    constructor
    · rintro ⟨a, ha, rfl⟩; exact ⟨_, (ho.mem a).1 ha⟩
    · rintro ⟨i, hi⟩; exact ⟨mkArc y i, ho.mem_mk.2 hi, rfl⟩
  have hmi : ∀ y, y ∈ ix.map (·.node) ↔ ∃ i, A y x = some i := by
    intro y
    rw [List.mem_map]
    constructor
    · rintro ⟨a, ha, rfl⟩; exact ⟨_, (hi.mem a).1 ha⟩
    · rintro ⟨i, hi'⟩; exact ⟨mkArc y i, hi.mem_mk.2 hi', rfl⟩
  have hxx : ∀ i, A x x ≠ some i := fun i hc => (h.dom x x i hc).2.2 rfl
  obtain ⟨inn', e1, l1, s1, r1⟩ := removeBackArcs_spec x n ox g.inn (fun y u => A u y) ho.nodup h.lenIn
    (by
      intro a ha
      have := (ho.mem a).1 ha
      exact ⟨(h.dom _ _ _ this).2.1, _, this⟩) h.inn
  obtain ⟨out', e2, l2, s2, r2⟩ := removeBackArcs_spec x n ix g.out (fun y v => A y v) hi.nodup h.lenOut
    (by
      intro a ha
      have := (hi.mem a).1 ha
      exact ⟨(h.dom _ _ _ this).1, _, this⟩) h.out
  have hix : rd inn' x = some ix := by
    rw [s1 x (by rw [hmo]; rintro ⟨i, hc⟩; exact hxx i hc), ei]
  have hxi : x < inn'.length := by omega
  have hxo : x < out'.length := by omega
  refine ⟨⟨out'.set x [], inn'.set x [], g.level⟩, ?_, ?_, rfl⟩
  · unfold removeAllIncidentArcs
    simp only [eo, e1, hix, e2, wr_lt hxi, wr_lt hxo, Option.bind_eq_bind, Option.bind_some]
  · refine ⟨by simp [l2], by simp [l1], h.lenLevel, ?_, ?_, ?_⟩
    · intro u hu
      simp only [rd_set hxo]
      by_cases hux : u = x
      · rw [if_pos hux]
        exact ⟨[], rfl, AdjRep.nil.congr fun y => by simp [delMap, hux]⟩
      · rw [if_neg hux]
        obtain ⟨l, el, hl⟩ := r2 u hu
        refine ⟨l, el, hl.congr ?_⟩
        intro v
        unfold delMap
        by_cases hm : u ∈ ix.map (·.node)
        · rw [if_pos hm, upd]
          by_cases hv : v = x
          · rw [if_pos (Or.inr hv), if_pos hv]
          · rw [if_neg (by rintro (h | h); exact hux h; exact hv h), if_neg hv]
        · rw [if_neg hm]
          rw [hmi] at hm
          by_cases hv : v = x
          · rw [if_pos (Or.inr hv), hv]
            cases hc : A u x with
            | none => rfl
            | some i => exact absurd ⟨i, hc⟩ hm
          · rw [if_neg (by rintro (h | h); exact hux h; exact hv h)]
    · intro v hv
      simp only [rd_set hxi]
      by_cases hvx : v = x
      · rw [if_pos hvx]
        exact ⟨[], rfl, AdjRep.nil.congr fun y => by simp [delMap, hvx]⟩
      · rw [if_neg hvx]
        obtain ⟨l, el, hl⟩ := r1 v hv
        refine ⟨l, el, hl.congr ?_⟩
        intro u
        unfold delMap
        by_cases hm : v ∈ ox.map (·.node)
        · rw [if_pos hm, upd]
          by_cases hu : u = x
          · rw [if_pos (Or.inl hu), if_pos hu]
          · rw [if_neg (by rintro (h | h); exact hu h; exact hvx h), if_neg hu]
        · rw [if_neg hm]
          rw [hmo] at hm
          by_cases hu : u = x
          · rw [if_pos (Or.inl hu), hu]
            cases hc : A x v with
            | none => rfl
            | some i => exact absurd ⟨i, hc⟩ hm
          · rw [if_neg (by rintro (h | h); exact hu h; exact hvx h)]
    · intro u v i hA
      unfold delMap at hA
      split at hA
      · cases hA
      · exact h.dom u v i hA

/-- The constructor, for an arc list without loops and multi arcs. -/
theorem new_spec {n m : Nat} {tail head weight : List Nat} (h1 : tail.length = m) (h2 : head.length = m)
    (h3 : weight.length = m) (ht : ∀ a, a < m → fn tail a < n) (hh : ∀ a, a < m → fn head a < n)
    (hne : ∀ a, a < m → fn tail a ≠ fn head a)
    (hu : ∀ a b, a < m → b < m → fn tail a = fn tail b → fn head a = fn head b → a = b) :
    ∃ g A, new n tail head weight = some g ∧ GRep g n A ∧
      ∀ x y i, A x y = some i ↔ ∃ a, a < m ∧ fn tail a = x ∧ fn head a = y ∧
        i = ⟨fn weight a, 1, invalidId⟩ := by
  unfold new
  rw [h2]
  obtain ⟨g, e, A, hg, hA⟩ := forRange_inv (f := addInput tail head weight) (lo := 0) (hi := m)
    (s := ⟨List.replicate n [], List.replicate n [], List.replicate n 0⟩)
    (fun k g => ∃ A, GRep g n A ∧ ∀ x y i, A x y = some i ↔ ∃ a, a < k ∧ fn tail a = x ∧
      fn head a = y ∧ i = ⟨fn weight a, 1, invalidId⟩) (by omega)
    ⟨fun _ _ => none, ⟨by simp, by simp, by simp,
      fun x hx => ⟨[], rd_replicate hx, AdjRep.nil⟩, fun x hx => ⟨[], rd_replicate hx, AdjRep.nil⟩,
      by intro x y i hi; cases hi⟩, by
      intro x y i
      constructor
      · intro hi; cases hi
      · rintro ⟨a, ha, _⟩; omega⟩
    (by
      rintro k g _ hk ⟨A, hg, hA⟩
      let x := fn tail k
      let y := fn head k
      have hx : x < n := ht k hk
      have hy : y < n := hh k hk
      have hxy : x ≠ y := hne k hk
      obtain ⟨ox, eo, ho⟩ := hg.out x hx
      obtain ⟨iy, ei, hi⟩ := hg.inn y hy
      have hxl : x < g.out.length := by rw [hg.lenOut]; exact hx
      have hyl : y < g.inn.length := by rw [hg.lenIn]; exact hy
      have hnone : A x y = none := by
        cases hc : A x y with
        | none => rfl
        | some i =>
          obtain ⟨a, ha, e1, e2, _⟩ := (hA x y i).1 hc
          have := hu a k (by omega) hk e1 e2
          omega
      let i : Info := ⟨fn weight k, 1, invalidId⟩
      refine ⟨⟨g.out.set x (ox ++ [mkArc y i]), g.inn.set y (iy ++ [mkArc x i]), g.level⟩, ?_,
        upd2 A x y (some i), ⟨by simp [hg.lenOut], by simp [hg.lenIn], hg.lenLevel, ?_, ?_, ?_⟩, ?_⟩
      · unfold addInput
        simp only [rd_fn (v := tail) (x := k) (by omega), rd_fn (v := head) (x := k) (by omega),
          rd_fn (v := weight) (x := k) (by omega), Option.bind_eq_bind, Option.bind_some]
        rw [if_pos hxy]
        simp only [x, y] at eo ei hxl hyl
        simp only [eo, ei, Option.bind_some, wr_lt hxl, wr_lt hyl]
        rfl
      · intro u hu'
        simp only [rd_set hxl]
        by_cases hux : u = x
        · rw [if_pos hux]
          refine ⟨_, rfl, (ho.push (i := i) hnone).congr ?_⟩
          intro v; unfold upd2 upd; rw [hux]; simp
        · rw [if_neg hux]
          obtain ⟨l, el, hl⟩ := hg.out u hu'
          exact ⟨l, el, hl.congr fun v => by unfold upd2; rw [if_neg fun hc => hux hc.1]⟩
      · intro v hv'
        simp only [rd_set hyl]
        by_cases hvy : v = y
        · rw [if_pos hvy]
          refine ⟨_, rfl, (hi.push (i := i) hnone).congr ?_⟩
          intro u; unfold upd2 upd; rw [hvy]; simp
        · rw [if_neg hvy]
          obtain ⟨l, el, hl⟩ := hg.inn v hv'
          exact ⟨l, el, hl.congr fun u => by unfold upd2; rw [if_neg fun hc => hvy hc.2]⟩
      · intro u v j hj
        unfold upd2 at hj
        split at hj
        · rename_i hc; rw [hc.1, hc.2]; exact ⟨hx, hy, hxy⟩
        · exact hg.dom u v j hj
      · intro u v j
        unfold upd2
        by_cases hc : u = x ∧ v = y
        · rw [if_pos hc]
          constructor
          · intro hj; cases hj
            exact ⟨k, by omega, hc.1.symm, hc.2.symm, rfl⟩
          · rintro ⟨a, ha, e1, e2, e3⟩
            have := hu a k (by omega) hk (e1.trans hc.1) (e2.trans hc.2)
            subst this
            rw [e3]
        · rw [if_neg hc, hA]
          constructor
          · rintro ⟨a, ha, h⟩; exact ⟨a, by omega, h⟩
          · rintro ⟨a, ha, e1, e2, e3⟩
            refine ⟨a, ?_, e1, e2, e3⟩
            by_contra hak
            have : a = k := by omega
            subst this
            exact hc ⟨e1.symm, e2.symm⟩)
  exact ⟨g, A, e, hg, hA⟩

end ChGraph
end RK
