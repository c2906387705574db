import Verif.Spec.BitVectorValue
import Verif.Proof.BitVectorResize
import Verif.Proof.History
/-! Helper lemmas: the memory of bit vectors. -/
namespace RK
open Spec

theorem loadVec_congr {b b' : List (Option (List Word))} {o : BVObj} (h : ∀ p, o.ptr = some p → b'[p]? = b[p]?) : loadVec b' o = loadVec b o := by
  unfold loadVec
  cases e : o.ptr with
  | none => rfl
  | some p => simp only [rd, h p e]

theorem get_of {h : BVHeap} {k : Nat} {o : BVObj} (e : h.objs k = some o) : h.get k = loadVec h.blocks o := by
  unfold BVHeap.get
  rw [e]
  rfl

theorem get_none {h : BVHeap} {k : Nat} (e : h.objs k = none) : h.get k = none := by
  unfold BVHeap.get
  rw [e]
  rfl

/-- Objects that exist have a content. -/
theorem _root_.Spec.MemoryOk.load {h : BVHeap} (m : MemoryOk h) {k : Nat} {o : BVObj} (e : h.objs k = some o) :
    ∃ v, loadVec h.blocks o = some v ∧ v.size = o.size ∧ (v.data.isSome = o.ptr.isSome) ∧
      (∀ p ws, o.ptr = some p → h.blocks[p]? = some (some ws) → v.data = some ws) := by
  unfold loadVec
  cases ep : o.ptr with
  | none => exact ⟨_, rfl, rfl, rfl, fun p ws e' => (by cases e')⟩
  | some p =>
    obtain ⟨ws, hw⟩ := m.valid k o p e ep
    refine ⟨⟨some ws, o.size⟩, ?_, rfl, rfl, ?_⟩
    · simp only [rd, hw]
      rfl
    · intro p' ws' e1 e2
      cases e1
      rw [hw] at e2
      cases e2
      rfl

theorem _root_.Spec.MemoryOk.isNone {h : BVHeap} (m : MemoryOk h) (k : Nat) : (h.objs k).isNone = (h.get k).isNone := by
  cases e : h.objs k with
  | none => rw [get_none e]; rfl
  | some o =>
    obtain ⟨v, hv, _⟩ := m.load e
    rw [get_of e, hv]
    rfl

theorem _root_.Spec.MemoryOk.getSome {h : BVHeap} {k : Nat} {v : BitVector} (e : h.get k = some v) :
    ∃ o, h.objs k = some o ∧ loadVec h.blocks o = some v := by
  cases eo : h.objs k with
  | none => rw [get_none eo] at e; cases e
  | some o => exact ⟨o, rfl, by rw [← get_of eo]; exact e⟩

theorem freeBlock_spec {b : List (Option (List Word))} {q : Option Nat} (h : ∀ p, q = some p → ∃ ws, b[p]? = some (some ws)) :
    ∃ b', freeBlock b q = some b' ∧ ∀ p, b'[p]? = if q = some p then some none else b[p]? := by
  cases q with
  | none => exact ⟨b, rfl, fun p => by simp⟩
  | some q =>
    obtain ⟨ws, hw⟩ := h q rfl
    have hlt : q < b.length := (List.getElem?_eq_some_iff.1 hw).1
    refine ⟨b.set q none, ?_, ?_⟩
    · unfold freeBlock
      simp only [rd, hw, Option.bind_eq_bind, Option.bind_some]
      exact wr_lt hlt
    · intro p
      rw [List.getElem?_set]
      by_cases e : q = p
      · subst e; simp [hlt]
      · rw [if_neg e, if_neg (fun e' => e (Option.some.inj e'))]

theorem _root_.Spec.MemoryOk.ptr_valid {h : BVHeap} (m : MemoryOk h) (k p : Nat) (e : ptrOf (h.objs k) = some p) : ∃ ws, h.blocks[p]? = some (some ws) := by
  unfold ptrOf at e
  obtain ⟨o, e1, e2⟩ := Option.bind_eq_some_iff.1 e
  exact m.valid k o p e1 e2

theorem _root_.Spec.MemoryOk.ptr_ne {h : BVHeap} (m : MemoryOk h) {k j p : Nat} {o : BVObj} (hj : j ≠ k) (e : h.objs j = some o) (ep : o.ptr = some p) :
    ptrOf (h.objs k) ≠ some p := by
  intro e'
  obtain ⟨o', e1, e2⟩ := Option.bind_eq_some_iff.1 e'
  exact hj (m.unshared j k o o' p e e1 ep e2)

theorem install_spec {h : BVHeap} (m : MemoryOk h) (k : Nat) (r : BitVector) (ok : Bool) :
    ∃ h' t, h.install k r ok = some (h', t) ∧ MemoryOk h' ∧ (h'.get, t) = Vars.assign h.get k r ok := by
  obtain ⟨rd', rs⟩ := r
  cases rd' with
  | none =>
    obtain ⟨b', e1, e2⟩ := freeBlock_spec (m.ptr_valid k)
    refine ⟨⟨b', setObj h.objs k (some ⟨none, rs⟩)⟩, false, ?_, ⟨?_, ?_, ?_⟩, ?_⟩
    · unfold BVHeap.install
      simp only [e1]
      rfl
    · intro j o p ej ep
      simp only [setObj] at ej
      split at ej
      · cases ej; cases ep
      · next hj =>
        obtain ⟨ws, hw⟩ := m.valid j o p ej ep
        exact ⟨ws, by show b'[p]? = _; rw [e2, if_neg (m.ptr_ne hj ej ep)]; exact hw⟩
    · intro j j' o o' p ej ej' ep ep'
      simp only [setObj] at ej ej'
      split at ej
      · cases ej; cases ep
      · split at ej'
        · cases ej'; cases ep'
        · exact m.unshared j j' o o' p ej ej' ep ep'
    · intro p ws hw
      change b'[p]? = _ at hw
      rw [e2] at hw
      split at hw
      · cases hw
      · next hne =>
        obtain ⟨j, o, ej, ep⟩ := m.owned p ws hw
        refine ⟨j, o, ?_, ep⟩
        simp only [setObj]
        rw [if_neg]
        · exact ej
        · rintro rfl
          exact hne (by unfold ptrOf; rw [ej]; exact ep)
    · unfold Vars.assign
      rw [if_neg (by simp)]
      congr 1
      funext j
      unfold Vars.set
      by_cases hj : j = k
      · subst hj
        rw [if_pos rfl, get_of (o := ⟨none, rs⟩) (by simp [setObj])]
        rfl
      · rw [if_neg hj]
        cases ej : h.objs j with
        | none => rw [get_none ej, get_none (by simp [setObj, hj, ej])]
        | some o =>
          rw [get_of ej, get_of (o := o) (by simp [setObj, hj, ej])]
          apply loadVec_congr
          intro p ep
          show b'[p]? = _
          rw [e2, if_neg (m.ptr_ne hj ej ep)]
  | some ws0 =>
    cases ok with
    | false =>
      exact ⟨h, true, by unfold BVHeap.install; simp, m, by unfold Vars.assign; rw [if_pos ⟨rfl, rfl⟩]⟩
    | true =>
      have old : ∀ p, p < h.blocks.length → (h.blocks ++ [some ws0])[p]? = h.blocks[p]? := fun p hp => List.getElem?_append_left hp
      have lt : ∀ {p ws}, h.blocks[p]? = some (some ws) → p < h.blocks.length := fun e => (List.getElem?_eq_some_iff.1 e).1
      obtain ⟨b', e1, e2⟩ := freeBlock_spec (b := h.blocks ++ [some ws0]) (q := ptrOf (h.objs k)) (by
        intro p e
        obtain ⟨ws, hw⟩ := m.ptr_valid k p e
        exact ⟨ws, by rw [old p (lt hw)]; exact hw⟩)
      have hlast : b'[h.blocks.length]? = some (some ws0) := by
        rw [e2, if_neg]
        · simp
        · intro e
          obtain ⟨ws, hw⟩ := m.ptr_valid k _ e
          exact absurd (lt hw) (by omega)
      refine ⟨⟨b', setObj h.objs k (some ⟨some h.blocks.length, rs⟩)⟩, false, ?_, ⟨?_, ?_, ?_⟩, ?_⟩
      · unfold BVHeap.install
        simp only [e1]
        rfl
      · intro j o p ej ep
        simp only [setObj] at ej
        split at ej
        · cases ej; cases ep; exact ⟨ws0, hlast⟩
        · next hj =>
          obtain ⟨ws, hw⟩ := m.valid j o p ej ep
          exact ⟨ws, by show b'[p]? = _; rw [e2, if_neg (m.ptr_ne hj ej ep), old p (lt hw)]; exact hw⟩
      · intro j j' o o' p ej ej' ep ep'
        simp only [setObj] at ej ej'
        split at ej
        · next hj =>
          cases ej; cases ep
          split at ej'
          · next hj' => rw [hj, hj']
          · obtain ⟨ws, hw⟩ := m.valid j' o' _ ej' ep'
            exact absurd (lt hw) (by omega)
        · split at ej'
          · cases ej'; cases ep'
            obtain ⟨ws, hw⟩ := m.valid j o _ ej ep
            exact absurd (lt hw) (by omega)
          · exact m.unshared j j' o o' p ej ej' ep ep'
      · intro p ws hw
        change b'[p]? = _ at hw
        rw [e2] at hw
        split at hw
        · cases hw
        · next hne =>
          by_cases hp : p < h.blocks.length
          · rw [old p hp] at hw
            obtain ⟨j, o, ej, ep⟩ := m.owned p ws hw
            refine ⟨j, o, ?_, ep⟩
            simp only [setObj]
            rw [if_neg]
            · exact ej
            · rintro rfl
              exact hne (by unfold ptrOf; rw [ej]; exact ep)
          · have := (List.getElem?_eq_some_iff.1 hw).1
            simp only [List.length_append, List.length_singleton] at this
            refine ⟨k, ⟨some h.blocks.length, rs⟩, by simp [setObj], ?_⟩
            show some h.blocks.length = some p
            congr 1
            omega
      · unfold Vars.assign
        rw [if_neg (by simp)]
        congr 1
        funext j
        unfold Vars.set
        by_cases hj : j = k
        · subst hj
          rw [if_pos rfl, get_of (o := ⟨some h.blocks.length, rs⟩) (by simp [setObj])]
          unfold loadVec
          simp only [rd, hlast]
          rfl
        · rw [if_neg hj]
          cases ej : h.objs j with
          | none => rw [get_none ej, get_none (by simp [setObj, hj, ej])]
          | some o =>
            rw [get_of ej, get_of (o := o) (by simp [setObj, hj, ej])]
            apply loadVec_congr
            intro p ep
            obtain ⟨ws, hw⟩ := m.valid j o p ej ep
            show b'[p]? = _
            rw [e2, if_neg (m.ptr_ne hj ej ep), old p (lt hw)]

theorem store_spec {h : BVHeap} (m : MemoryOk h) {k : Nat} {v r : BitVector} (e : h.get k = some v) (hr : r.data.isSome = v.data.isSome) :
    ∃ h', h.store k r = some h' ∧ MemoryOk h' ∧ h'.get = Vars.set h.get k (some r) := by
  obtain ⟨o, eo, el⟩ := MemoryOk.getSome e
  obtain ⟨v', hv', _, hs, _⟩ := m.load eo
  rw [el] at hv'
  cases hv'
  rw [hs] at hr
  obtain ⟨rdata, rs⟩ := r
  obtain ⟨q, n⟩ := o
  cases q with
  | none =>
    cases rdata with
    | some ws => cases hr
    | none =>
      refine ⟨⟨h.blocks, setObj h.objs k (some ⟨none, rs⟩)⟩, ?_, ⟨?_, ?_, ?_⟩, ?_⟩
      · unfold BVHeap.store
        rw [eo]
        rfl
      · intro j o p ej ep
        simp only [setObj] at ej
        split at ej
        · cases ej; cases ep
        · exact m.valid j o p ej ep
      · intro j j' o o' p ej ej' ep ep'
        simp only [setObj] at ej ej'
        split at ej
        · cases ej; cases ep
        · split at ej'
          · cases ej'; cases ep'
          · exact m.unshared j j' o o' p ej ej' ep ep'
      · intro p ws hw
        obtain ⟨j, o, ej, ep⟩ := m.owned p ws hw
        refine ⟨j, o, ?_, ep⟩
        simp only [setObj]
        rw [if_neg]
        · exact ej
        · rintro rfl
          rw [eo] at ej
          cases ej
          cases ep
      · funext j
        unfold Vars.set
        by_cases hj : j = k
        · subst hj
          rw [if_pos rfl, get_of (o := ⟨none, rs⟩) (by simp [setObj])]
          rfl
        · rw [if_neg hj]
          cases ej : h.objs j with
          | none => rw [get_none ej, get_none (by simp [setObj, hj, ej])]
          | some o => rw [get_of ej, get_of (o := o) (by simp [setObj, hj, ej])]
  | some p =>
    cases rdata with
    | none => cases hr
    | some ws =>
      obtain ⟨ws0, hw0⟩ := m.valid k _ p eo rfl
      have hlt : p < h.blocks.length := (List.getElem?_eq_some_iff.1 hw0).1
      have hset : ∀ q, (h.blocks.set p (some ws))[q]? = if q = p then some (some ws) else h.blocks[q]? := by
        intro q
        rw [List.getElem?_set]
        by_cases hq : q = p
        · rw [if_pos hq.symm, if_pos hq, if_pos hlt]
        · rw [if_neg (fun e => hq e.symm), if_neg hq]
      refine ⟨⟨h.blocks.set p (some ws), setObj h.objs k (some ⟨some p, rs⟩)⟩, ?_, ⟨?_, ?_, ?_⟩, ?_⟩
      · unfold BVHeap.store
        rw [eo]
        simp only [Option.bind_eq_bind, Option.bind_some, rd, hw0, wr_lt hlt]
      · intro j o q ej ep
        show ∃ ws', (h.blocks.set p (some ws))[q]? = _
        rw [hset]
        split
        · exact ⟨ws, rfl⟩
        · next hq =>
          simp only [setObj] at ej
          split at ej
          · cases ej
            exact absurd (Option.some.inj ep).symm hq
          · exact m.valid j o q ej ep
      · intro j j' o o' q ej ej' ep ep'
        simp only [setObj] at ej ej'
        split at ej
        · next hj =>
          cases ej; cases ep
          split at ej'
          · next hj' => rw [hj, hj']
          · rw [hj]; exact m.unshared k j' _ o' p eo ej' rfl ep'
        · split at ej'
          · next hj' => cases ej'; cases ep'; rw [hj']; exact m.unshared j k o _ p ej eo ep rfl
          · exact m.unshared j j' o o' q ej ej' ep ep'
      · intro q ws' hw
        change (h.blocks.set p (some ws))[q]? = _ at hw
        rw [hset] at hw
        split at hw
        · next hq => exact ⟨k, ⟨some p, rs⟩, by simp [setObj], by rw [hq]⟩
        · next hq =>
          obtain ⟨j, o, ej, ep⟩ := m.owned q ws' hw
          refine ⟨j, o, ?_, ep⟩
          simp only [setObj]
          rw [if_neg]
          · exact ej
          · rintro rfl
            rw [eo] at ej
            cases ej
            exact hq (Option.some.inj ep).symm
      · funext j
        unfold Vars.set
        by_cases hj : j = k
        · subst hj
          rw [if_pos rfl, get_of (o := ⟨some p, rs⟩) (by simp [setObj])]
          unfold loadVec
          simp only [rd, hset, if_pos]
          rfl
        · rw [if_neg hj]
          cases ej : h.objs j with
          | none => rw [get_none ej, get_none (by simp [setObj, hj, ej])]
          | some o =>
            rw [get_of ej, get_of (o := o) (by simp [setObj, hj, ej])]
            apply loadVec_congr
            intro q ep
            show (h.blocks.set p (some ws))[q]? = _
            rw [hset, if_neg]
            rintro rfl
            exact hj (m.unshared j k o _ q ej eo ep rfl)

/-- Moving a block to another object, whose old block is freed. -/
theorem moveTo_spec {h : BVHeap} (m : MemoryOk h) {k src : Nat} {o : BVObj} {v : BitVector} (eo : h.objs src = some o) (el : loadVec h.blocks o = some v) :
    ∃ b', freeBlock h.blocks (ptrOf (setObj h.objs src (some ⟨none, 0⟩) k)) = some b' ∧
      MemoryOk ⟨b', setObj (setObj h.objs src (some ⟨none, 0⟩)) k (some o)⟩ ∧
      (⟨b', setObj (setObj h.objs src (some ⟨none, 0⟩)) k (some o)⟩ : BVHeap).get =
        ((Vars.set h.get src (some BitVector.null)).set k (some v)) := by
  have hk : ∀ p, ptrOf (setObj h.objs src (some ⟨none, 0⟩) k) = some p → k ≠ src ∧ ptrOf (h.objs k) = some p := by
    intro p e
    unfold setObj at e
    split at e
    · cases e
    · next hne => exact ⟨hne, e⟩
  obtain ⟨b', e1, e2⟩ := freeBlock_spec (b := h.blocks) (q := ptrOf (setObj h.objs src (some ⟨none, 0⟩) k))
    (fun p e => m.ptr_valid k p (hk p e).2)
  -- the objects afterwards
  have obj : ∀ {j o'}, setObj (setObj h.objs src (some ⟨none, 0⟩)) k (some o) j = some o' →
      (j = k ∧ o' = o) ∨ (j ≠ k ∧ j = src ∧ o' = ⟨none, 0⟩) ∨ (j ≠ k ∧ j ≠ src ∧ h.objs j = some o') := by
    intro j o' e
    simp only [setObj] at e
    split at e
    · next hj => cases e; exact Or.inl ⟨hj, rfl⟩
    · next hj =>
      split at e
      · next hj' => cases e; exact Or.inr (Or.inl ⟨hj, hj', rfl⟩)
      · next hj' => exact Or.inr (Or.inr ⟨hj, hj', e⟩)
  have keepSrc : ∀ p, o.ptr = some p → b'[p]? = h.blocks[p]? := by
    intro p ep
    rw [e2, if_neg]
    intro e
    exact m.ptr_ne (hk p e).1.symm eo ep (hk p e).2
  have keep : ∀ j o' p, j ≠ k → h.objs j = some o' → o'.ptr = some p → b'[p]? = h.blocks[p]? := by
    intro j o' p hj ej ep
    rw [e2, if_neg]
    intro e
    exact m.ptr_ne hj ej ep (hk p e).2
  refine ⟨b', e1, ⟨?_, ?_, ?_⟩, ?_⟩
  · intro j o' p ej ep
    rcases obj ej with ⟨_, rfl⟩ | ⟨_, _, rfl⟩ | ⟨hj, _, e⟩
    · obtain ⟨ws, hw⟩ := m.valid src _ p eo ep
      exact ⟨ws, (keepSrc p ep).trans hw⟩
    · cases ep
    · obtain ⟨ws, hw⟩ := m.valid j o' p e ep
      exact ⟨ws, (keep j o' p hj e ep).trans hw⟩
  · intro j j' p1 p2 p ej ej' ep ep'
    rcases obj ej with ⟨hj, rfl⟩ | ⟨_, _, rfl⟩ | ⟨hj, hs, e⟩
    · rcases obj ej' with ⟨hj', rfl⟩ | ⟨_, _, rfl⟩ | ⟨hj', hs', e'⟩
      · rw [hj, hj']
      · cases ep'
      · exact absurd (m.unshared src j' _ _ p eo e' ep ep').symm hs'
    · cases ep
    · rcases obj ej' with ⟨hj', rfl⟩ | ⟨_, _, rfl⟩ | ⟨hj', hs', e'⟩
      · exact absurd (m.unshared j src _ _ p e eo ep ep') hs
      · cases ep'
      · exact m.unshared j j' _ _ p e e' ep ep'
  · intro p ws hw
    change b'[p]? = _ at hw
    rw [e2] at hw
    split at hw
    · cases hw
    · next hne =>
      obtain ⟨j, o', ej, ep⟩ := m.owned p ws hw
      by_cases hs : j = src
      · subst hs
        rw [eo] at ej
        cases ej
        exact ⟨k, o, by simp [setObj], ep⟩
      · by_cases hj : j = k
        · subst hj
          refine absurd ?_ hne
          unfold setObj
          rw [if_neg hs, ej]
          exact ep
        · exact ⟨j, o', by simp [setObj, hj, hs, ej], ep⟩
  · funext j
    unfold Vars.set
    by_cases hj : j = k
    · subst hj
      rw [if_pos rfl, get_of (o := o) (by simp [setObj]), ← el]
      exact loadVec_congr keepSrc
    · rw [if_neg hj]
      by_cases hs : j = src
      · rw [if_pos hs, get_of (o := ⟨none, 0⟩) (by simp only [setObj, if_neg hj, if_pos hs])]
        rfl
      · rw [if_neg hs]
        cases ej : h.objs j with
        | none => rw [get_none ej, get_none (by simp [setObj, hj, hs, ej])]
        | some o' =>
          rw [get_of ej, get_of (o := o') (by simp [setObj, hj, hs, ej])]
          exact loadVec_congr fun p ep => keep j o' p hj ej ep

theorem swap_spec {h : BVHeap} (m : MemoryOk h) {k l : Nat} {a b : BVObj} {v u : BitVector} (ea : h.objs k = some a) (eb : h.objs l = some b)
    (ev : loadVec h.blocks a = some v) (eu : loadVec h.blocks b = some u) :
    MemoryOk ⟨h.blocks, setObj (setObj h.objs l (some a)) k (some b)⟩ ∧
      (⟨h.blocks, setObj (setObj h.objs l (some a)) k (some b)⟩ : BVHeap).get = ((Vars.set h.get l (some v)).set k (some u)) := by
  -- the number of the object before the exchange
  have src : ∀ {j o}, setObj (setObj h.objs l (some a)) k (some b) j = some o →
      h.objs (if j = k then l else if j = l then k else j) = some o := by
    intro j o e
    simp only [setObj] at e
    split at e
    · next hj => cases e; rw [if_pos hj]; exact eb
    · next hj =>
      rw [if_neg hj]
      split at e
      · next hl => cases e; rw [if_pos hl]; exact ea
      · next hl => rw [if_neg hl]; exact e
  refine ⟨⟨?_, ?_, ?_⟩, ?_⟩
  · intro j o p ej ep
    exact m.valid _ o p (src ej) ep
  · intro j j' o o' p ej ej' ep ep'
    have := m.unshared _ _ o o' p (src ej) (src ej') ep ep'
    split at this <;> split at this <;> (try split at this) <;> (try split at this) <;> omega
  · intro p ws hw
    obtain ⟨j, o, ej, ep⟩ := m.owned p ws hw
    by_cases hk : j = k
    · subst hk
      rw [ea] at ej
      cases ej
      by_cases hl : l = j
      · subst hl
        rw [ea] at eb
        cases eb
        exact ⟨l, a, by simp [setObj], ep⟩
      · exact ⟨l, a, by simp [setObj, hl], ep⟩
    · by_cases hl : j = l
      · subst hl
        rw [eb] at ej
        cases ej
        exact ⟨k, b, by simp [setObj], ep⟩
      · exact ⟨j, o, by simp [setObj, hk, hl, ej], ep⟩
  · funext j
    unfold Vars.set
    by_cases hj : j = k
    · rw [if_pos hj, get_of (o := b) (by simp [setObj, hj])]
      exact eu
    · rw [if_neg hj]
      by_cases hl : j = l
      · rw [if_pos hl, get_of (o := a) (by simp only [setObj, if_neg hj, if_pos hl])]
        exact ev
      · rw [if_neg hl]
        cases ej : h.objs j with
        | none => rw [get_none ej, get_none (by simp [setObj, hj, hl, ej])]
        | some o => rw [get_of ej, get_of (o := o) (by simp [setObj, hj, hl, ej])]

theorem destroy_spec {h : BVHeap} (m : MemoryOk h) {k : Nat} {o : BVObj} (eo : h.objs k = some o) :
    ∃ b', freeBlock h.blocks o.ptr = some b' ∧ MemoryOk ⟨b', setObj h.objs k none⟩ ∧
      (⟨b', setObj h.objs k none⟩ : BVHeap).get = Vars.set h.get k none := by
  obtain ⟨b', e1, e2⟩ := freeBlock_spec (b := h.blocks) (q := o.ptr) (fun p e => m.valid k o p eo e)
  have keep : ∀ j o' p, j ≠ k → h.objs j = some o' → o'.ptr = some p → b'[p]? = h.blocks[p]? := by
    intro j o' p hj ej ep
    rw [e2, if_neg]
    intro e
    exact hj (m.unshared j k o' o p ej eo ep e)
  have obj : ∀ {j o'}, setObj h.objs k none j = some o' → j ≠ k ∧ h.objs j = some o' := by
    intro j o' e
    simp only [setObj] at e
    split at e
    · cases e
    · next hj => exact ⟨hj, e⟩
  refine ⟨b', e1, ⟨?_, ?_, ?_⟩, ?_⟩
  · intro j o' p ej ep
    obtain ⟨hj, ej⟩ := obj ej
    obtain ⟨ws, hw⟩ := m.valid j o' p ej ep
    exact ⟨ws, (keep j o' p hj ej ep).trans hw⟩
  · intro j j' o1 o2 p ej ej' ep ep'
    exact m.unshared j j' o1 o2 p (obj ej).2 (obj ej').2 ep ep'
  · intro p ws hw
    change b'[p]? = _ at hw
    rw [e2] at hw
    split at hw
    · cases hw
    · next hne =>
      obtain ⟨j, o', ej, ep⟩ := m.owned p ws hw
      have hj : j ≠ k := by
        rintro rfl
        rw [eo] at ej
        cases ej
        exact hne ep
      exact ⟨j, o', by simp [setObj, hj, ej], ep⟩
  · funext j
    unfold Vars.set
    by_cases hj : j = k
    · rw [if_pos hj, get_none (by simp [setObj, hj])]
    · rw [if_neg hj]
      cases ej : h.objs j with
      | none => rw [get_none ej, get_none (by simp [setObj, hj, ej])]
      | some o' =>
        rw [get_of ej, get_of (o := o') (by simp [setObj, hj, ej])]
        exact loadVec_congr fun p ep => keep j o' p hj ej ep

/-! ### Which operations keep the null pointer -/

theorem words_isSome {v : BitVector} {i : Nat} {w : Word} (h : rd v.words i = some w) : v.data.isSome = true := by
  unfold BitVector.words at h
  cases e : v.data with
  | some ws => rfl
  | none => rw [e] at h; simp [rd] at h

theorem updateOne_isSome {v r : BitVector} {x : Nat} {f : Word → Word}
    (h : ((check (decide (x < v.size))).bind fun _ => (rd v.words (x / 64)).bind fun d => (wr v.words (x / 64) (f d)).bind fun ws =>
      some { v with data := some ws }) = some r) : r.data.isSome = v.data.isSome := by
  obtain ⟨_, _, h⟩ := Option.bind_eq_some_iff.1 h
  obtain ⟨d, h1, h⟩ := Option.bind_eq_some_iff.1 h
  obtain ⟨ws, _, h⟩ := Option.bind_eq_some_iff.1 h
  cases h
  exact (words_isSome h1).symm

theorem withWords_isSome (v : BitVector) (ws : List Word) : (v.withWords ws).data.isSome = v.data.isSome := by
  unfold BitVector.withWords
  cases v.data <;> rfl

theorem mapWords_nil {b n : Nat} {f : Nat → Word → Option Word} (hn : 0 < n) : BitVector.mapWords b (b + n) [] f = none := by
  obtain ⟨m, rfl⟩ : ∃ m, n = m + 1 := ⟨n - 1, by omega⟩
  unfold BitVector.mapWords forRange
  rw [show b + (m + 1) - b = m + 1 by omega]
  rfl

theorem resetPadding_eq {v r : BitVector} (h : v.resetPadding = some r) : r.data.isSome = v.data.isSome := by
  unfold BitVector.resetPadding at h
  obtain ⟨v1, h1, h⟩ := Option.bind_eq_some_iff.1 h
  obtain ⟨_, _, h⟩ := Option.bind_eq_some_iff.1 h
  cases h
  split at h1
  · obtain ⟨_, _, h1⟩ := Option.bind_eq_some_iff.1 h1
    obtain ⟨_, h2, h1⟩ := Option.bind_eq_some_iff.1 h1
    cases h1
    cases e : v.data with
    | some ws => rfl
    | none =>
      unfold BitVector.words at h2
      rw [e] at h2
      simp only [Option.getD_none] at h2
      rw [mapWords_nil (by omega)] at h2
      cases h2
  · cases h1
    rfl

theorem resetPadding_isSome {v r : BitVector} (h : v.resetPadding = some r) (hv : v.data.isSome = true) : r.data.isSome = true := by
  rw [resetPadding_eq h]
  exact hv

theorem update_isSome {v r : BitVector} {u : BVUpdate} (h : u.eval v = some r) : r.data.isSome = v.data.isSome := by
  cases u with
  | set x => exact updateOne_isSome (f := fun d => d ||| (1#64 <<< (x % 64))) h
  | reset x => exact updateOne_isSome (f := fun d => d &&& ~~~(1#64 <<< (x % 64))) h
  | toggle x => exact updateOne_isSome (f := fun d => d ^^^ (1#64 <<< (x % 64))) h
  | setTo x b => exact updateOne_isSome (f := fun d => (d &&& ~~~(1#64 <<< (x % 64))) ||| (BitVector.boolWord b <<< (x % 64))) h
  | setIf x b => exact updateOne_isSome (f := fun d => d ||| (BitVector.boolWord b <<< (x % 64))) h
  | resetAll =>
    obtain ⟨ws, _, h⟩ := Option.bind_eq_some_iff.1 h
    obtain ⟨_, _, h⟩ := Option.bind_eq_some_iff.1 h
    cases h
    exact withWords_isSome v ws
  | setAll =>
    obtain ⟨ws, _, h⟩ := Option.bind_eq_some_iff.1 h
    exact (resetPadding_eq h).trans (withWords_isSome v ws)
  | setAllTo b =>
    simp only [BVUpdate.eval, BitVector.setAllTo] at h
    obtain ⟨ws, _, h⟩ := Option.bind_eq_some_iff.1 h
    split at h
    · obtain ⟨v1, h1, h⟩ := Option.bind_eq_some_iff.1 h
      obtain ⟨_, _, h⟩ := Option.bind_eq_some_iff.1 h
      cases h
      exact (resetPadding_eq h1).trans (withWords_isSome v ws)
    · obtain ⟨v1, h1, h⟩ := Option.bind_eq_some_iff.1 h
      obtain ⟨_, _, h⟩ := Option.bind_eq_some_iff.1 h
      cases h
      cases h1
      exact withWords_isSome v ws
  | inplaceNot =>
    obtain ⟨_, _, h⟩ := Option.bind_eq_some_iff.1 h
    obtain ⟨ws, _, h⟩ := Option.bind_eq_some_iff.1 h
    obtain ⟨v1, h1, h⟩ := Option.bind_eq_some_iff.1 h
    obtain ⟨_, _, h⟩ := Option.bind_eq_some_iff.1 h
    cases h
    exact (resetPadding_eq h1).trans (withWords_isSome v ws)

theorem combine_isSome {v u r : BitVector} {c : BVCombine} (h : c.eval v u = some r) : r.data.isSome = v.data.isSome := by
  have key : ∀ {f : Nat → Word → Option Word}, ((BitVector.assertPad v).bind fun _ => (BitVector.assertPad u).bind fun _ =>
      (check (decide (v.size = u.size))).bind fun _ => (BitVector.mapWords 0 (BitVector.u64Count v.size) v.words f).bind fun ws =>
        (BitVector.assertPad (v.withWords ws)).bind fun _ => some (v.withWords ws)) = some r → r.data.isSome = v.data.isSome := by
    intro f h
    obtain ⟨_, _, h⟩ := Option.bind_eq_some_iff.1 h
    obtain ⟨_, _, h⟩ := Option.bind_eq_some_iff.1 h
    obtain ⟨_, _, h⟩ := Option.bind_eq_some_iff.1 h
    obtain ⟨ws, _, h⟩ := Option.bind_eq_some_iff.1 h
    obtain ⟨_, _, h⟩ := Option.bind_eq_some_iff.1 h
    cases h
    exact withWords_isSome v ws
  cases c with
  | or => exact key h
  | xor => exact key h
  | and => exact key h

theorem resizeUninit_isSome {v r : BitVector} {n : Nat} {junk : Nat → Word} (h : v.resizeUninit n junk = some r) (hk : keepsBlock v n = true) :
    r.data.isSome = v.data.isSome := by
  unfold keepsBlock at hk
  rw [Bool.and_eq_true, decide_eq_true_eq] at hk
  unfold BitVector.resizeUninit at h
  rw [hk.1]
  cases e : v.data with
  | none => rw [e] at hk; cases hk.1
  | some ws =>
    simp only [e] at h
    obtain ⟨_, _, h⟩ := Option.bind_eq_some_iff.1 h
    obtain ⟨v1, h1, h⟩ := Option.bind_eq_some_iff.1 h
    obtain ⟨_, _, h⟩ := Option.bind_eq_some_iff.1 h
    cases h
    rw [if_pos hk.2] at h1
    exact resetPadding_isSome h1 rfl

theorem resize_isSome {v r : BitVector} {n : Nat} {b : Bool} (h : v.resize n b = some r) (hk : keepsBlock v n = true) :
    r.data.isSome = v.data.isSome := by
  have hk0 := hk
  unfold keepsBlock at hk
  rw [Bool.and_eq_true, decide_eq_true_eq] at hk
  unfold BitVector.resize at h
  rw [hk.1]
  cases e : v.data with
  | none => rw [e] at hk; cases hk.1
  | some ws =>
    simp only [e] at h
    obtain ⟨_, _, h⟩ := Option.bind_eq_some_iff.1 h
    obtain ⟨v1, h1, h⟩ := Option.bind_eq_some_iff.1 h
    obtain ⟨_, _, h⟩ := Option.bind_eq_some_iff.1 h
    cases h
    split at h1
    · have := resizeUninit_isSome (v := v) h1 hk0
      rw [this]
      exact hk.1
    · rw [if_pos hk.2] at h1
      split at h1
      · cases h1; rfl
      · obtain ⟨_, _, h1⟩ := Option.bind_eq_some_iff.1 h1
        obtain ⟨_, _, h1⟩ := Option.bind_eq_some_iff.1 h1
        obtain ⟨_, _, h1⟩ := Option.bind_eq_some_iff.1 h1
        cases h1
        rfl

/-! ### All operations -/

/-- The two machines agree on the result of an operation. -/
def Agree (r : Option (BVHeap × Bool)) (s : Option (Vars × Bool)) : Prop :=
  r.map (fun x => (x.1.get, x.2)) = s ∧ ∀ x, r = some x → MemoryOk x.1

theorem agree_bind {α : Type} {x : Option α} {f : α → Option (BVHeap × Bool)} {g : α → Option (Vars × Bool)} (h : ∀ a, x = some a → Agree (f a) (g a)) :
    Agree (x.bind f) (x.bind g) := by
  cases x with
  | none => exact ⟨rfl, fun _ e => (by cases e)⟩
  | some a => exact h a rfl

theorem agree_some {h : BVHeap} {t : Bool} {s : Vars × Bool} (m : MemoryOk h) (e : (h.get, t) = s) : Agree (some (h, t)) (some s) :=
  ⟨by rw [← e]; rfl, fun x ex => by cases ex; exact m⟩

theorem agree_install {h : BVHeap} (m : MemoryOk h) (k : Nat) (r : BitVector) (ok : Bool) :
    Agree (h.install k r ok) (some (Vars.assign h.get k r ok)) := by
  obtain ⟨h', t, e1, m', e2⟩ := install_spec m k r ok
  rw [e1]
  exact agree_some m' e2

theorem agree_store {h : BVHeap} (m : MemoryOk h) {k : Nat} {v r : BitVector} (e : h.get k = some v) (hr : r.data.isSome = v.data.isSome) :
    Agree ((h.store k r).bind fun h => some (h, false)) (some (Vars.set h.get k (some r), false)) := by
  obtain ⟨h', e1, m', e2⟩ := store_spec m e hr
  rw [e1]
  exact agree_some m' (by rw [e2])

theorem objs_bind {h : BVHeap} (m : MemoryOk h) {k : Nat} {r : Option (BVHeap × Bool)} {s : Option (Vars × Bool)} (hrs : Agree r s) :
    Agree ((h.objs k).bind fun _ => r) ((h.get k).bind fun _ => s) := by
  cases e : h.objs k with
  | none => rw [get_none e]; exact ⟨rfl, fun _ e => (by cases e)⟩
  | some o =>
    obtain ⟨v, hv, _⟩ := m.load e
    rw [get_of e, hv]
    exact hrs

theorem step_agree {h : BVHeap} (m : MemoryOk h) (ok : Bool) (op : BVMemOp) : Agree (h.step ok op) (Vars.step h.get ok op) := by
  cases op with
  | default k =>
    simp only [BVHeap.step, Vars.step, m.isNone]
    refine agree_bind fun _ _ => ?_
    have := agree_install m k BitVector.null ok
    unfold Vars.assign at this
    rwa [if_neg (by simp [BitVector.null])] at this
  | create k n b =>
    simp only [BVHeap.step, Vars.step, m.isNone]
    exact agree_bind fun _ _ => agree_bind fun r _ => agree_install m k r ok
  | createUninit k n junk =>
    simp only [BVHeap.step, Vars.step, m.isNone]
    exact agree_bind fun _ _ => agree_bind fun r _ => agree_install m k r ok
  | copy k src =>
    simp only [BVHeap.step, Vars.step, m.isNone]
    exact agree_bind fun _ _ => agree_bind fun v _ => agree_bind fun r _ => agree_install m k r ok
  | move k src =>
    simp only [BVHeap.step, Vars.step, m.isNone]
    refine agree_bind fun _ hc => agree_bind fun v hv => agree_bind fun _ _ => ?_
    obtain ⟨o, eo, el⟩ := MemoryOk.getSome hv
    simp only [eo, Option.bind_eq_bind, Option.bind_some]
    obtain ⟨b', e1, m', e2⟩ := moveTo_spec m (k := k) eo el
    have hk : h.objs k = none := by
      have : (h.get k).isNone = true := by
        unfold check at hc
        split at hc
        · assumption
        · cases hc
      rw [← m.isNone] at this
      simpa using this
    have : ptrOf (setObj h.objs src (some ⟨none, 0⟩) k) = none := by
      unfold setObj
      split
      · rfl
      · rw [hk]; rfl
    rw [this] at e1
    cases e1
    exact agree_some m' (by rw [e2])
  | assign k src =>
    simp only [BVHeap.step, Vars.step]
    exact objs_bind m (agree_bind fun v _ => agree_bind fun r _ => agree_install m k r ok)
  | moveAssign k src =>
    simp only [BVHeap.step, Vars.step]
    refine objs_bind m (agree_bind fun v hv => agree_bind fun _ _ => ?_)
    obtain ⟨o, eo, el⟩ := MemoryOk.getSome hv
    simp only [eo, Option.bind_eq_bind, Option.bind_some]
    obtain ⟨b', e1, m', e2⟩ := moveTo_spec m (k := k) eo el
    rw [e1]
    exact agree_some m' (by rw [e2])
  | swap k l =>
    simp only [BVHeap.step, Vars.step]
    refine agree_bind fun v hv => agree_bind fun u hu => agree_bind fun _ _ => agree_bind fun _ _ => ?_
    obtain ⟨a, ea, ev⟩ := MemoryOk.getSome hv
    obtain ⟨b, eb, eu⟩ := MemoryOk.getSome hu
    simp only [ea, eb, Option.bind_eq_bind, Option.bind_some]
    obtain ⟨m', e⟩ := swap_spec m ea eb ev eu
    exact agree_some m' (by rw [e])
  | resize k n b =>
    simp only [BVHeap.step, Vars.step]
    refine agree_bind fun v hv => agree_bind fun r hr => ?_
    by_cases hk : keepsBlock v n = true
    · rw [if_pos hk, if_pos hk]
      exact agree_store m hv (resize_isSome hr hk)
    · rw [if_neg hk, if_neg hk]
      exact agree_install m k r ok
  | resizeUninit k n junk =>
    simp only [BVHeap.step, Vars.step]
    refine agree_bind fun v hv => agree_bind fun r hr => ?_
    by_cases hk : keepsBlock v n = true
    · rw [if_pos hk, if_pos hk]
      exact agree_store m hv (resizeUninit_isSome hr hk)
    · rw [if_neg hk, if_neg hk]
      exact agree_install m k r ok
  | update k u =>
    simp only [BVHeap.step, Vars.step]
    exact agree_bind fun v hv => agree_bind fun r hr => agree_store m hv (update_isSome hr)
  | combine k l c =>
    simp only [BVHeap.step, Vars.step]
    exact agree_bind fun v hv => agree_bind fun u _ => agree_bind fun r hr => agree_store m hv (combine_isSome hr)
  | destroy k =>
    simp only [BVHeap.step, Vars.step]
    cases eo : h.objs k with
    | none => rw [get_none eo]; exact ⟨rfl, fun _ e => (by cases e)⟩
    | some o =>
      obtain ⟨v, hv, _⟩ := m.load eo
      rw [get_of eo, hv]
      obtain ⟨b', e1, m', e2⟩ := destroy_spec m eo
      simp only [Option.bind_eq_bind, Option.bind_some, e1]
      exact agree_some m' (by rw [e2])

theorem run_agree {h : BVHeap} (m : MemoryOk h) (ops : List (Bool × BVMemOp)) :
    (runCalls memCall h ops).map (fun x => (x.1.get, x.2)) = runCalls varsCall h.get ops ∧ ∀ x, runCalls memCall h ops = some x → MemoryOk x.1 := by
  induction ops using List.reverseRecOn with
  | nil => exact ⟨rfl, fun x e => by cases e; exact m⟩
  | append_singleton ops op ih =>
    rw [runCalls_snoc, runCalls_snoc, ← ih.1]
    cases e : runCalls memCall h ops with
    | none => exact ⟨rfl, fun _ e => (by cases e)⟩
    | some r =>
      obtain ⟨a1, a2⟩ := step_agree (ih.2 r e) op.1 op.2
      simp only [Option.bind_some, Option.map_some]
      unfold memCall varsCall
      rw [← a1]
      cases e2 : r.1.step op.1 op.2 with
      | none => exact ⟨rfl, fun _ e => (by cases e)⟩
      | some r2 => exact ⟨rfl, fun x ex => by cases ex; exact a2 r2 e2⟩

theorem memoryOk_empty : MemoryOk BVHeap.empty :=
  ⟨fun _ _ _ e => (by cases e), fun _ _ _ _ _ e => (by cases e), fun p ws e => by simp [BVHeap.empty] at e⟩

/-! ### The bits -/

/-- The values have these bits. -/
def BitsRep (f : Vars) (F : BitVars) : Prop :=
  ∀ k, match F k with
    | none => f k = none
    | some B => ∃ v, f k = some v ∧ v.Rep B

theorem BitsRep.none {f : Vars} {F : BitVars} (h : BitsRep f F) {k : Nat} (e : F k = none) : f k = none := by
  have := h k
  rw [e] at this
  exact this

theorem BitsRep.some {f : Vars} {F : BitVars} (h : BitsRep f F) {k : Nat} {B : List Bool} (e : F k = some B) : ∃ v, f k = some v ∧ v.Rep B := by
  have := h k
  rw [e] at this
  exact this

theorem BitsRep.ne {f : Vars} {F : BitVars} (h : BitsRep f F) {k : Nat} (e : F k ≠ .none) : ∃ B v, F k = .some B ∧ f k = .some v ∧ v.Rep B := by
  obtain ⟨B, e⟩ := Option.ne_none_iff_exists'.1 e
  obtain ⟨v, e1, e2⟩ := h.some e
  exact ⟨B, v, e, e1, e2⟩

theorem BitsRep.set {f : Vars} {F : BitVars} (h : BitsRep f F) (k : Nat) {v : BitVector} {B : List Bool} (hv : v.Rep B) :
    BitsRep (f.set k (.some v)) (F.set k (.some B)) := by
  intro j
  unfold Vars.set BitVars.set
  by_cases hj : j = k
  · rw [if_pos hj, if_pos hj]; exact ⟨v, rfl, hv⟩
  · rw [if_neg hj, if_neg hj]; exact h j

theorem BitsRep.remove {f : Vars} {F : BitVars} (h : BitsRep f F) (k : Nat) : BitsRep (f.set k .none) (F.set k .none) := by
  intro j
  unfold Vars.set BitVars.set
  by_cases hj : j = k
  · rw [if_pos hj, if_pos hj]
  · rw [if_neg hj, if_neg hj]; exact h j

theorem max_lt {n : Nat} (h : n ≤ maxBits) : n + 511 < u64 := by
  unfold maxBits at h; unfold u64; omega

/-- Assignment of a new value that needs memory. -/
theorem BitsRep.assign {f : Vars} {F : BitVars} (h : BitsRep f F) (k : Nat) {v : BitVector} {B : List Bool} (hv : v.Rep B) (ok : Bool) {op : BVMemOp}
    (hop : MayThrow op) (hm : BitMeaning F op (F.set k (.some B))) :
    ∃ f' t F', (.some (f.assign k v ok) : Option (Vars × Bool)) = .some (f', t) ∧ BitStep F (ok, op) t F' ∧ BitsRep f' F' := by
  unfold Vars.assign
  by_cases c : v.data.isSome = true ∧ ok = false
  · rw [if_pos c]
    exact ⟨f, true, F, rfl, Or.inl ⟨rfl, c.2, hop, rfl⟩, h⟩
  · rw [if_neg c]
    exact ⟨_, false, _, rfl, Or.inr ⟨rfl, hm⟩, h.set k hv⟩

theorem update_rep {v : BitVector} {B : List Bool} (h : v.Rep B) (u : BVUpdate) (hu : match u with
    | .set x | .reset x | .toggle x | .setTo x _ | .setIf x _ => x < B.length
    | .resetAll | .setAll | .setAllTo _ | .inplaceNot => True) : ∃ v', u.eval v = some v' ∧ v'.Rep (updatedBits B u) := by
  cases u with
  | set x => exact h.set hu
  | reset x => exact h.reset hu
  | toggle x =>
    obtain ⟨v', e, hr⟩ := h.toggle hu
    refine ⟨v', e, ?_⟩
    have hu' : x < B.length := hu
    show v'.Rep (B.modify x (!·))
    rw [List.modify_eq_set_get _ hu']
    rw [BitVector.at_lt hu'] at hr
    exact hr
  | setTo x b => exact h.setTo hu b
  | setIf x b =>
    obtain ⟨v', e, hr⟩ := h.setIf hu b
    refine ⟨v', e, ?_⟩
    have hu' : x < B.length := hu
    cases b with
    | true => simpa [updatedBits] using hr
    | false =>
      rw [Bool.or_false, BitVector.at_lt hu', List.set_getElem_self] at hr
      simpa [updatedBits] using hr
  | resetAll => exact h.resetAll
  | setAll => exact h.setAll
  | setAllTo b => exact h.setAllTo b
  | inplaceNot => exact h.inplaceNot

theorem combine_rep {v u : BitVector} {B C : List Bool} (h : v.Rep B) (h' : u.Rep C) (hl : B.length = C.length) (c : BVCombine) :
    ∃ v', c.eval v u = some v' ∧ v'.Rep (combinedBits B C c) := by
  cases c with
  | or => exact h.orEq h' hl
  | xor => exact h.xorEq h' hl
  | and => exact h.andEq h' hl

theorem vars_step_bits {f : Vars} {F : BitVars} (h : BitsRep f F) (op : Bool × BVMemOp) (hp : BitPre F op) :
    ∃ f' t F', varsCall f op = some (f', t) ∧ BitStep F op t F' ∧ BitsRep f' F' := by
  obtain ⟨ok, op⟩ := op
  unfold varsCall
  unfold BitPre at hp
  cases op with
  | default k =>
    have e := h.none hp
    simp only [Vars.step, e, Option.isNone_none, check_true, Option.bind_eq_bind, Option.bind_some]
    exact ⟨_, _, _, rfl, Or.inr ⟨rfl, rfl⟩, h.set k BitVector.rep_null⟩
  | create k n b =>
    have e := h.none hp.1
    obtain ⟨v, e1, hr, _⟩ := BitVector.rep_new (max_lt hp.2) b
    simp only [Vars.step, e, Option.isNone_none, check_true, Option.bind_eq_bind, Option.bind_some, e1]
    exact h.assign k hr ok (op := .create k n b) trivial rfl
  | createUninit k n junk =>
    have e := h.none hp.1
    obtain ⟨v, B, e1, hr, hl⟩ := BitVector.rep_newUninit (max_lt hp.2) junk
    simp only [Vars.step, e, Option.isNone_none, check_true, Option.bind_eq_bind, Option.bind_some, e1]
    exact h.assign k hr ok (op := .createUninit k n junk) trivial ⟨B, hl, rfl⟩
  | copy k src =>
    have e := h.none hp.1
    obtain ⟨B, v, eB, ev, hv⟩ := h.ne hp.2
    obtain ⟨v', e1, hr⟩ := hv.copy
    simp only [Vars.step, e, ev, Option.isNone_none, check_true, Option.bind_eq_bind, Option.bind_some, e1]
    exact h.assign k hr ok (op := .copy k src) trivial (by show _ = _; rw [eB])
  | move k src =>
    have e := h.none hp.1
    obtain ⟨B, v, eB, ev, hv⟩ := h.ne hp.2
    simp only [Vars.step, e, ev, Option.isNone_none, check_true, Option.bind_eq_bind, Option.bind_some, hv.pad]
    exact ⟨_, _, _, rfl, Or.inr ⟨rfl, rfl⟩, by rw [eB]; exact (h.set src BitVector.rep_null).set k hv⟩
  | assign k src =>
    obtain ⟨B0, v0, eB0, ev0, hv0⟩ := h.ne hp.1
    obtain ⟨B, v, eB, ev, hv⟩ := h.ne hp.2
    obtain ⟨v', e1, hr⟩ := hv.copy
    simp only [Vars.step, ev0, ev, Option.bind_eq_bind, Option.bind_some, e1]
    exact h.assign k hr ok (op := .assign k src) trivial (by show _ = _; rw [eB])
  | moveAssign k src =>
    obtain ⟨B0, v0, eB0, ev0, hv0⟩ := h.ne hp.1
    obtain ⟨B, v, eB, ev, hv⟩ := h.ne hp.2
    simp only [Vars.step, ev0, ev, Option.bind_eq_bind, Option.bind_some, hv.pad]
    exact ⟨_, _, _, rfl, Or.inr ⟨rfl, rfl⟩, by rw [eB]; exact (h.set src BitVector.rep_null).set k hv⟩
  | swap k l =>
    obtain ⟨B0, v0, eB0, ev0, hv0⟩ := h.ne hp.1
    obtain ⟨B, v, eB, ev, hv⟩ := h.ne hp.2
    simp only [Vars.step, ev0, ev, Option.bind_eq_bind, Option.bind_some, hv.pad, hv0.pad]
    exact ⟨_, _, _, rfl, Or.inr ⟨rfl, rfl⟩, by rw [eB, eB0]; exact (h.set l hv0).set k hv⟩
  | resize k n b =>
    obtain ⟨hn, B, eB, hb⟩ := hp
    obtain ⟨v, ev, hv⟩ := h.some eB
    obtain ⟨v', e1, hr⟩ := hv.resize (max_lt hn) b (by
      intro e
      have := hb e
      have := hv.size
      unfold BitVector.ResizeTrueOK
      right
      omega)
    simp only [Vars.step, ev, Option.bind_eq_bind, Option.bind_some, e1]
    by_cases c : keepsBlock v n = true
    · rw [if_pos c]
      exact ⟨_, _, _, rfl, Or.inr ⟨rfl, B, eB, rfl⟩, h.set k hr⟩
    · rw [if_neg c]
      exact h.assign k hr ok (op := .resize k n b) trivial ⟨B, eB, rfl⟩
  | resizeUninit k n junk =>
    obtain ⟨hn, hk⟩ := hp
    obtain ⟨B, v, eB, ev, hv⟩ := h.ne hk
    obtain ⟨v', B', e1, hr, hl, hx, _⟩ := hv.resizeUninit (max_lt hn) junk
    have hm : BitMeaning F (.resizeUninit k n junk) (F.set k (.some B')) := by
      refine ⟨B, B', eB, hl, ?_, rfl⟩
      intro x h1 h2
      have := hx x h1 h2
      rw [BitVector.at_lt (by omega), BitVector.at_lt h2] at this
      rw [List.getElem?_eq_getElem (by omega), List.getElem?_eq_getElem h2, this]
    simp only [Vars.step, ev, Option.bind_eq_bind, Option.bind_some, e1]
    by_cases c : keepsBlock v n = true
    · rw [if_pos c]
      exact ⟨_, _, _, rfl, Or.inr ⟨rfl, hm⟩, h.set k hr⟩
    · rw [if_neg c]
      exact h.assign k hr ok (op := .resizeUninit k n junk) trivial hm
  | update k u =>
    obtain ⟨B, eB, hu⟩ := hp
    obtain ⟨v, ev, hv⟩ := h.some eB
    obtain ⟨v', e1, hr⟩ := update_rep hv u hu
    simp only [Vars.step, ev, Option.bind_eq_bind, Option.bind_some, e1]
    exact ⟨_, _, _, rfl, Or.inr ⟨rfl, B, eB, rfl⟩, h.set k hr⟩
  | combine k l c =>
    obtain ⟨B, C, eB, eC, hl⟩ := hp
    obtain ⟨v, ev, hv⟩ := h.some eB
    obtain ⟨u, eu, hu⟩ := h.some eC
    obtain ⟨v', e1, hr⟩ := combine_rep hv hu hl c
    simp only [Vars.step, ev, eu, Option.bind_eq_bind, Option.bind_some, e1]
    exact ⟨_, _, _, rfl, Or.inr ⟨rfl, B, C, eB, eC, rfl⟩, h.set k hr⟩
  | destroy k =>
    obtain ⟨B, v, eB, ev, hv⟩ := h.ne hp
    simp only [Vars.step, ev, Option.bind_eq_bind, Option.bind_some]
    exact ⟨_, _, _, rfl, Or.inr ⟨rfl, rfl⟩, h.remove k⟩

theorem mem_step_bits {h : BVHeap} {F : BitVars} (hm : MemoryOk h ∧ BitsRep h.get F) (op : Bool × BVMemOp) (hp : BitPre F op) :
    ∃ h' t F', memCall h op = some (h', t) ∧ BitStep F op t F' ∧ (MemoryOk h' ∧ BitsRep h'.get F') := by
  obtain ⟨f', t, F', e, hs, hr⟩ := vars_step_bits hm.2 op hp
  obtain ⟨a1, a2⟩ := step_agree hm.1 op.1 op.2
  unfold varsCall at e
  rw [e] at a1
  obtain ⟨⟨h', t'⟩, e1, e2⟩ := Option.map_eq_some_iff.1 a1
  cases e2
  exact ⟨h', t', F', e1, hs, a2 _ e1, hr⟩

/-- Operations that throw leave the memory as it was. -/
theorem step_threw {h h' : BVHeap} {ok : Bool} {op : BVMemOp} (e : h.step ok op = some (h', true)) : h' = h ∧ ok = false := by
  have inst : ∀ {k r}, h.install k r ok = some (h', true) → h' = h ∧ ok = false := by
    intro k r e
    unfold BVHeap.install at e
    split at e
    · obtain ⟨_, _, e⟩ := Option.bind_eq_some_iff.1 e
      cases e
    · split at e
      · obtain ⟨_, _, e⟩ := Option.bind_eq_some_iff.1 e
        cases e
      · next hok => cases e; exact ⟨rfl, by simpa using hok⟩
  have sto : ∀ {k r}, ((h.store k r).bind fun h => some (h, false)) = some (h', true) → h' = h ∧ ok = false := by
    intro k r e
    obtain ⟨_, _, e⟩ := Option.bind_eq_some_iff.1 e
    cases e
  cases op <;> simp only [BVHeap.step] at e
  case default => obtain ⟨_, _, e⟩ := Option.bind_eq_some_iff.1 e; exact inst e
  case create =>
    obtain ⟨_, _, e⟩ := Option.bind_eq_some_iff.1 e
    obtain ⟨_, _, e⟩ := Option.bind_eq_some_iff.1 e
    exact inst e
  case createUninit =>
    obtain ⟨_, _, e⟩ := Option.bind_eq_some_iff.1 e
    obtain ⟨_, _, e⟩ := Option.bind_eq_some_iff.1 e
    exact inst e
  case copy =>
    obtain ⟨_, _, e⟩ := Option.bind_eq_some_iff.1 e
    obtain ⟨_, _, e⟩ := Option.bind_eq_some_iff.1 e
    obtain ⟨_, _, e⟩ := Option.bind_eq_some_iff.1 e
    exact inst e
  case move =>
    obtain ⟨_, _, e⟩ := Option.bind_eq_some_iff.1 e
    obtain ⟨_, _, e⟩ := Option.bind_eq_some_iff.1 e
    obtain ⟨_, _, e⟩ := Option.bind_eq_some_iff.1 e
    obtain ⟨_, _, e⟩ := Option.bind_eq_some_iff.1 e
    cases e
  case assign =>
    obtain ⟨_, _, e⟩ := Option.bind_eq_some_iff.1 e
    obtain ⟨_, _, e⟩ := Option.bind_eq_some_iff.1 e
    obtain ⟨_, _, e⟩ := Option.bind_eq_some_iff.1 e
    exact inst e
  case moveAssign =>
    obtain ⟨_, _, e⟩ := Option.bind_eq_some_iff.1 e
    obtain ⟨_, _, e⟩ := Option.bind_eq_some_iff.1 e
    obtain ⟨_, _, e⟩ := Option.bind_eq_some_iff.1 e
    obtain ⟨_, _, e⟩ := Option.bind_eq_some_iff.1 e
    obtain ⟨_, _, e⟩ := Option.bind_eq_some_iff.1 e
    cases e
  case swap =>
    obtain ⟨_, _, e⟩ := Option.bind_eq_some_iff.1 e
    obtain ⟨_, _, e⟩ := Option.bind_eq_some_iff.1 e
    obtain ⟨_, _, e⟩ := Option.bind_eq_some_iff.1 e
    obtain ⟨_, _, e⟩ := Option.bind_eq_some_iff.1 e
    obtain ⟨_, _, e⟩ := Option.bind_eq_some_iff.1 e
    obtain ⟨_, _, e⟩ := Option.bind_eq_some_iff.1 e
    cases e
  case resize =>
    obtain ⟨_, _, e⟩ := Option.bind_eq_some_iff.1 e
    obtain ⟨_, _, e⟩ := Option.bind_eq_some_iff.1 e
    split at e
    · exact sto e
    · exact inst e
  case resizeUninit =>
    obtain ⟨_, _, e⟩ := Option.bind_eq_some_iff.1 e
    obtain ⟨_, _, e⟩ := Option.bind_eq_some_iff.1 e
    split at e
    · exact sto e
    · exact inst e
  case update =>
    obtain ⟨_, _, e⟩ := Option.bind_eq_some_iff.1 e
    obtain ⟨_, _, e⟩ := Option.bind_eq_some_iff.1 e
    exact sto e
  case combine =>
    obtain ⟨_, _, e⟩ := Option.bind_eq_some_iff.1 e
    obtain ⟨_, _, e⟩ := Option.bind_eq_some_iff.1 e
    obtain ⟨_, _, e⟩ := Option.bind_eq_some_iff.1 e
    exact sto e
  case destroy =>
    obtain ⟨_, _, e⟩ := Option.bind_eq_some_iff.1 e
    obtain ⟨_, _, e⟩ := Option.bind_eq_some_iff.1 e
    cases e

end RK
