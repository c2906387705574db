import Verif.Model.IdQueue
import Mathlib.Data.List.Nodup
import Mathlib.Data.List.Perm.Basic
import Mathlib.Data.List.Perm.Subperm
/-! Heap and position invariants of `MinIDQueue`: refinement to a partial map `id → key`. -/
namespace RK
namespace MinIDQueue

/-! ### Heap order on functions -/

/-- `K` is heap ordered on `[0,n)`. -/
def Ord (K : Nat → Nat) (n : Nat) : Prop := ∀ p, 0 < p → p < n → K ((p - 1) / 4) ≤ K p

/-- heap order except possibly between `pos` and its parent -/
structure UpOK (K : Nat → Nat) (n pos : Nat) : Prop where
  ord : ∀ p, 0 < p → p < n → p ≠ pos → K ((p - 1) / 4) ≤ K p
  skip : ∀ c, 0 < c → c < n → (c - 1) / 4 = pos → 0 < pos → K ((pos - 1) / 4) ≤ K c

/-- heap order except possibly between `pos` and its children -/
structure DownOK (K : Nat → Nat) (n pos : Nat) : Prop where
  ord : ∀ p, 0 < p → p < n → (p - 1) / 4 ≠ pos → K ((p - 1) / 4) ≤ K p
  skip : ∀ c, 0 < c → c < n → (c - 1) / 4 = pos → 0 < pos → K ((pos - 1) / 4) ≤ K c

def swapAt (K : Nat → Nat) (i j p : Nat) : Nat := if p = i then K j else if p = j then K i else K p

theorem swapAt_left {K i j} : swapAt K i j i = K j := by simp [swapAt]
theorem swapAt_right {K : Nat → Nat} {i j} : swapAt K i j j = K i := by
  unfold swapAt; split
  · rename_i h; rw [h]
  · simp
theorem swapAt_other {K : Nat → Nat} {i j p} (h1 : p ≠ i) (h2 : p ≠ j) : swapAt K i j p = K p := by
  unfold swapAt; rw [if_neg h1, if_neg h2]

theorem UpOK.swap {K n pos} (h : UpOK K n pos) (hpos : 0 < pos) (hn : pos < n)
    (hlt : K pos < K ((pos - 1) / 4)) :
    UpOK (swapAt K pos ((pos - 1) / 4)) n ((pos - 1) / 4) := by
  generalize hpar : (pos - 1) / 4 = par at *
  have hpp : par < pos := by omega
  constructor
  · intro p hp0 hpn hp
    by_cases hpos' : p = pos
    · subst hpos'
      rw [hpar, swapAt_right, swapAt_left]; omega
    · rw [swapAt_other hpos' hp]
      have h1 := h.ord p hp0 hpn hpos'
      by_cases hc : (p - 1) / 4 = pos
      · rw [hc, swapAt_left]
        have := h.skip p hp0 hpn hc hpos
        rwa [hpar] at this
      · by_cases hc2 : (p - 1) / 4 = par
        · rw [hc2, swapAt_right]
          rw [hc2] at h1; omega
        · rw [swapAt_other hc hc2]; exact h1
  · intro c hc0 hcn hc hpar0
    have h2 := h.ord par hpar0 (by omega) (by omega)
    have hne : (par - 1) / 4 ≠ pos := by omega
    have hne2 : (par - 1) / 4 ≠ par := by omega
    rw [swapAt_other hne hne2]
    by_cases hcp : c = pos
    · subst hcp; rw [swapAt_left]; exact h2
    · rw [swapAt_other hcp (by omega)]
      have := h.ord c hc0 hcn hcp
      rw [hc] at this; omega

theorem UpOK.next {K n pos} (h : UpOK K n pos) (hpos : 0 < pos) (hn : pos < n)
    (hle : K ((pos - 1) / 4) ≤ K pos) : UpOK K n ((pos - 1) / 4) := by
  have hord : Ord K n := by
    intro p hp0 hpn
    by_cases hp : p = pos
    · subst hp; exact hle
    · exact h.ord p hp0 hpn hp
  constructor
  · intro p hp0 hpn _; exact hord p hp0 hpn
  · intro c hc0 hcn hc hpar0
    have h1 := hord c hc0 hcn
    have h2 := hord ((pos - 1) / 4) hpar0 (by omega)
    rw [hc] at h1
    omega

theorem UpOK.ord_zero {K n} (h : UpOK K n 0) : Ord K n := fun p h1 h2 => h.ord p h1 h2 (by omega)

theorem DownOK.swap {K n pos s} (h : DownOK K n pos) (hs0 : 0 < s) (hs : s < n)
    (hsp : (s - 1) / 4 = pos) (hmin : ∀ c, 0 < c → c < n → (c - 1) / 4 = pos → K s ≤ K c)
    (hlt : K s < K pos) : DownOK (swapAt K pos s) n s := by
  have hps : pos < s := by omega
  constructor
  · intro p hp0 hpn hp
    by_cases hpos : (p - 1) / 4 = pos
    · rw [hpos, swapAt_left]
      by_cases hp' : p = s
      · subst hp'; rw [swapAt_right]; omega
      · rw [swapAt_other (by omega) hp']; exact hmin p hp0 hpn hpos
    · have h1 := h.ord p hp0 hpn hpos
      rw [swapAt_other hpos hp]
      by_cases hp' : p = pos
      · subst hp'
        rw [swapAt_left]
        exact h.skip s hs0 hs hsp hp0
      · by_cases hp'' : p = s
        · subst hp''; exact absurd hsp hpos
        · rw [swapAt_other hp' hp'']; exact h1
  · intro c hc0 hcn hc _
    rw [hsp, swapAt_left, swapAt_other (by omega) (by omega)]
    have := h.ord c hc0 hcn (by omega)
    rwa [hc] at this

theorem DownOK.stop {K n pos} (h : DownOK K n pos)
    (hmin : ∀ c, 0 < c → c < n → (c - 1) / 4 = pos → K pos ≤ K c) : Ord K n := by
  intro p hp0 hpn
  by_cases hpos : (p - 1) / 4 = pos
  · rw [hpos]; exact hmin p hp0 hpn hpos
  · exact h.ord p hp0 hpn hpos

/-! ### Positions -/

/-- Key stored at heap position `p`. -/
def keyAt (h : List IDKeyPair) (p : Nat) : Nat := ((rd h p).map (·.key)).getD 0

theorem keyAt_eq {h : List IDKeyPair} {p : Nat} {e : IDKeyPair} (he : rd h p = some e) :
    keyAt h p = e.key := by simp [keyAt, he]

/-- Largest queue for which the child positions of the 4-ary tree do not wrap around. -/
def maxIds : Nat := 1073741824

/-- `q` stores the partial map `m` (ignoring the heap order). -/
structure PosRep (q : MinIDQueue) (n : Nat) (m : Nat → Option Nat) : Prop where
  hn : n ≤ maxIds
  lenP : q.idPos.length = n
  lenH : q.heap.length = n
  size_le : q.heapSize ≤ n
  bwd : ∀ p, p < q.heapSize → ∃ e, rd q.heap p = some e ∧ e.id < n ∧ rd q.idPos e.id = some p ∧
    m e.id = some e.key
  fwd_none : ∀ id, id < n → m id = none → rd q.idPos id = some invalidId
  fwd_some : ∀ id k, m id = some k → id < n ∧ ∃ p, p < q.heapSize ∧ rd q.idPos id = some p ∧
    rd q.heap p = some ⟨id, k⟩

/-- `q` is a valid queue containing exactly the map `m`. -/
structure Rep (q : MinIDQueue) (n : Nat) (m : Nat → Option Nat) : Prop where
  pos : PosRep q n m
  ord : Ord (keyAt q.heap) q.heapSize

variable {q : MinIDQueue} {n : Nat} {m : Nat → Option Nat}

theorem PosRep.id_inj (h : PosRep q n m) {p1 p2 : Nat} {e1 e2 : IDKeyPair} (h1 : p1 < q.heapSize)
    (h2 : p2 < q.heapSize) (he1 : rd q.heap p1 = some e1) (he2 : rd q.heap p2 = some e2)
    (hid : e1.id = e2.id) : p1 = p2 := by
  obtain ⟨e1', a1, _, a2, _⟩ := h.bwd p1 h1
  obtain ⟨e2', b1, _, b2, _⟩ := h.bwd p2 h2
  rw [he1] at a1; cases a1
  rw [he2] at b1; cases b1
  rw [hid, b2] at a2
  injection a2 with a2; exact a2.symm

theorem swapEntries_spec (h : PosRep q n m) {i j : Nat} (hi : i < q.heapSize) (hj : j < q.heapSize)
    (hij : i ≠ j) :
    ∃ q', swapEntries q i j = some q' ∧ PosRep q' n m ∧ q'.heapSize = q.heapSize ∧
      (∀ p, keyAt q'.heap p = swapAt (keyAt q.heap) i j p) ∧
      (∀ p, q.heapSize ≤ p → rd q'.heap p = rd q.heap p) := by
  obtain ⟨a, ha, han, hap, ham⟩ := h.bwd i hi
  obtain ⟨b, hb, hbn, hbp, hbm⟩ := h.bwd j hj
  have hsz := h.size_le
  have hid : a.id ≠ b.id := fun hh => hij (h.id_inj hi hj ha hb hh)
  have hi' : i < q.heap.length := by rw [h.lenH]; omega
  have hj' : j < q.heap.length := by rw [h.lenH]; omega
  have hj'' : j < (q.heap.set i b).length := by simpa using hj'
  have hpa : a.id < q.idPos.length := by rw [h.lenP]; exact han
  have hpb : b.id < q.idPos.length := by rw [h.lenP]; exact hbn
  have hpa' : a.id < (q.idPos.set b.id i).length := by simpa using hpa
  have hheap : ∀ p, rd ((q.heap.set i b).set j a) p =
      if p = j then some a else if p = i then some b else rd q.heap p := by
    intro p; rw [rd_set hj'', rd_set hi']
  have hidp : ∀ p, rd ((q.idPos.set b.id i).set a.id j) p =
      if p = a.id then some j else if p = b.id then some i else rd q.idPos p := by
    intro p; rw [rd_set hpa', rd_set hpb]
  refine ⟨{ q with heap := (q.heap.set i b).set j a, idPos := (q.idPos.set b.id i).set a.id j },
    ?_, ?_, rfl, ?_, ?_⟩
  · simp only [swapEntries, ha, hb, Option.bind_eq_bind, Option.bind_some, wr_lt hi', wr_lt hj'',
      hbp, hap, wr_lt hpb, wr_lt hpa']
  · refine ⟨h.hn, by simpa using h.lenP, by simpa using h.lenH, h.size_le, ?_, ?_, ?_⟩
    · intro p hp
      simp only [hheap, hidp]
      simp only at hp
      by_cases hpj : p = j
      · subst hpj
        exact ⟨a, by simp, han, by simp, ham⟩
      · by_cases hpi : p = i
        · subst hpi
          refine ⟨b, by simp [hpj], hbn, ?_, hbm⟩
          rw [if_neg (fun hh => hid hh.symm)]; simp
        · obtain ⟨e, he, hen, hep, hem⟩ := h.bwd p hp
          refine ⟨e, by simp [hpj, hpi, he], hen, ?_, hem⟩
          have h1 : e.id ≠ a.id := fun hh => hpi (h.id_inj hp hi he ha hh)
          have h2 : e.id ≠ b.id := fun hh => hpj (h.id_inj hp hj he hb hh)
          simp [h1, h2, hep]
    · intro id hidn hmn
      simp only [hidp]
      have h1 : id ≠ a.id := by rintro rfl; rw [ham] at hmn; cases hmn
      have h2 : id ≠ b.id := by rintro rfl; rw [hbm] at hmn; cases hmn
      simp [h1, h2, h.fwd_none id hidn hmn]
    · intro id k hk
      obtain ⟨hidn, p, hp, hpos, hrd⟩ := h.fwd_some id k hk
      refine ⟨hidn, ?_⟩
      simp only [hheap, hidp]
      by_cases h1 : id = a.id
      · subst h1
        refine ⟨j, hj, by simp, ?_⟩
        rw [ham] at hk; cases hk
        simp
      · by_cases h2 : id = b.id
        · subst h2
          refine ⟨i, hi, by simp [h1], ?_⟩
          rw [hbm] at hk; cases hk
          simp [hij]
        · refine ⟨p, hp, by simp [h1, h2, hpos], ?_⟩
          have h3 : p ≠ j := by
            rintro rfl; rw [hb] at hrd; cases hrd; exact h2 rfl
          have h4 : p ≠ i := by
            rintro rfl; rw [ha] at hrd; cases hrd; exact h1 rfl
          simp [h3, h4, hrd]
  · intro p
    unfold keyAt swapAt
    simp only [hheap]
    by_cases hpj : p = j
    · subst hpj
      rw [if_pos rfl, if_neg (fun hh => hij hh.symm), if_pos rfl, ha]
    · rw [if_neg hpj]
      by_cases hpi : p = i
      · rw [if_pos hpi, if_pos hpi, hb]
      · rw [if_neg hpi, if_neg hpi, if_neg hpj]
  · intro p hp
    simp only [hheap]
    rw [if_neg (by omega), if_neg (by omega)]

theorem Ord.congr {K K' : Nat → Nat} {n : Nat} (h : ∀ p, K' p = K p) (ho : Ord K n) : Ord K' n := by
  intro p h1 h2; rw [h, h]; exact ho p h1 h2

theorem UpOK.congr {K K' : Nat → Nat} {n pos : Nat} (h : ∀ p, K' p = K p) (ho : UpOK K n pos) :
    UpOK K' n pos := by
  have : K' = K := funext h
  rw [this]; exact ho

theorem DownOK.congr {K K' : Nat → Nat} {n pos : Nat} (h : ∀ p, K' p = K p) (ho : DownOK K n pos) :
    DownOK K' n pos := by
  have : K' = K := funext h
  rw [this]; exact ho

theorem moveUp_spec : ∀ {fuel : Nat} {q : MinIDQueue} {pos : Nat}, PosRep q n m →
    pos < fuel → pos < q.heapSize → UpOK (keyAt q.heap) q.heapSize pos →
    ∃ q', moveUp fuel q pos = some q' ∧ Rep q' n m ∧ q'.heapSize = q.heapSize
  | 0, _, _, _, hf, _, _ => by omega
  | fuel + 1, q, pos, h, hf, hp, hup => by
    unfold moveUp
    by_cases h0 : pos = 0
    · subst h0
      simp only [ne_eq, not_true_eq_false, if_false]
      exact ⟨q, rfl, ⟨h, hup.ord_zero⟩, rfl⟩
    · rw [if_pos h0]
      simp only [treeArity]
      obtain ⟨ep, hep, _⟩ := h.bwd ((pos - 1) / 4) (by omega)
      obtain ⟨e, he, _⟩ := h.bwd pos hp
      simp only [hep, he, Option.bind_eq_bind, Option.bind_some]
      by_cases hk : ep.key > e.key
      · rw [if_pos hk]
        obtain ⟨q1, e1, h1, h2, h3, _⟩ := swapEntries_spec h hp (j := (pos - 1) / 4) (by omega)
          (by omega)
        rw [e1, Option.bind_some]
        have hup' := hup.swap (by omega) hp (by rw [keyAt_eq he, keyAt_eq hep]; exact hk)
        obtain ⟨q2, e2, h4, h5⟩ := moveUp_spec (fuel := fuel) (pos := (pos - 1) / 4) h1 (by omega) (by omega)
          (by rw [h2]; exact hup'.congr h3)
        exact ⟨q2, e2, h4, by omega⟩
      · rw [if_neg hk]
        have hup' := hup.next (by omega) hp (by rw [keyAt_eq he, keyAt_eq hep]; omega)
        exact moveUp_spec (fuel := fuel) h (by omega) (by omega) hup'

theorem smallestChild_spec {h : List IDKeyPair} {f last : Nat} (hf : f < last)
    (hl : last ≤ h.length) :
    ∃ s, smallestChild h f last = some s ∧ f ≤ s ∧ s < last ∧
      ∀ c, f ≤ c → c < last → keyAt h s ≤ keyAt h c := by
  unfold smallestChild
  obtain ⟨s, e, h1, h2, h3⟩ := forRange_inv (lo := f + 1) (hi := last) (s := f)
    (f := fun s c => (rd h s).bind fun es => (rd h c).bind fun ec =>
      some (if es.key > ec.key then c else s))
    (fun i s => f ≤ s ∧ s < i ∧ ∀ c, f ≤ c → c < i → keyAt h s ≤ keyAt h c) (by omega)
    ⟨Nat.le_refl _, by omega, by
      intro c h1 h2
      have : c = f := by omega
      rw [this]; exact Nat.le_refl _⟩
    (by
      rintro i s h1 h2 ⟨h3, h4, h5⟩
      obtain ⟨es, hes⟩ := rd_isSome (v := h) (i := s) (by omega)
      obtain ⟨ec, hec⟩ := rd_isSome (v := h) (i := i) (by omega)
      refine ⟨if es.key > ec.key then i else s, by simp only [hes, hec, Option.bind_some], ?_⟩
      have k1 := keyAt_eq hes
      have k2 := keyAt_eq hec
      by_cases hk : es.key > ec.key
      · rw [if_pos hk]
        refine ⟨by omega, by omega, ?_⟩
        intro c hc1 hc2
        by_cases hci : c = i
        · rw [hci]; exact Nat.le_refl _
        · have := h5 c hc1 (by omega)
          omega
      · rw [if_neg hk]
        refine ⟨h3, by omega, ?_⟩
        intro c hc1 hc2
        by_cases hci : c = i
        · rw [hci]; omega
        · exact h5 c hc1 (by omega))
  exact ⟨s, e, h1, h2, h3⟩

theorem moveDown_spec : ∀ {fuel : Nat} {q : MinIDQueue} {pos : Nat}, PosRep q n m →
    q.heapSize < fuel + pos → (pos < q.heapSize ∨ (pos = 0 ∧ q.heapSize = 0)) →
    DownOK (keyAt q.heap) q.heapSize pos →
    ∃ q', moveDown fuel q pos = some q' ∧ Rep q' n m ∧ q'.heapSize = q.heapSize ∧
      (∀ p, q.heapSize ≤ p → rd q'.heap p = rd q.heap p)
  | 0, q, pos, h, hf, hp, _ => by omega
  | fuel + 1, q, pos, h, hf, hp, hd => by
    unfold moveDown
    have hsz := h.size_le
    have hn := h.hn
    have hposle : pos ≤ q.heapSize := by omega
    have hfc : add32 (mul32 treeArity pos) 1 = 4 * pos + 1 := by
      unfold add32 mul32 treeArity u32 maxIds at *
      omega
    simp only [hfc]
    by_cases hc : 4 * pos + 1 ≥ q.heapSize
    · rw [if_pos hc]
      refine ⟨q, rfl, ⟨h, hd.stop ?_⟩, rfl, fun _ _ => rfl⟩
      intro c hc0 hcn hcp
      omega
    · rw [if_neg hc]
      have hpos : pos < q.heapSize := by omega
      have hlast : add32 (add32 (mul32 treeArity pos) treeArity) 1 = 4 * pos + 5 := by
        unfold add32 mul32 treeArity u32 maxIds at *
        omega
      rw [hlast]
      obtain ⟨s, es, hs1, hs2, hs3⟩ := smallestChild_spec (h := q.heap) (f := 4 * pos + 1)
        (last := min (4 * pos + 5) q.heapSize) (by omega) (by rw [h.lenH]; omega)
      have hsp : (s - 1) / 4 = pos := by omega
      obtain ⟨xs, hxs, _⟩ := h.bwd s (by omega)
      obtain ⟨xp, hxp, _⟩ := h.bwd pos hpos
      simp only [es, Option.bind_eq_bind, Option.bind_some, hxs, hxp]
      have hmin : ∀ c, 0 < c → c < q.heapSize → (c - 1) / 4 = pos →
          keyAt q.heap s ≤ keyAt q.heap c := by
        intro c h1 h2 h3
        exact hs3 c (by omega) (by omega)
      by_cases hk : xs.key ≥ xp.key
      · rw [if_pos hk]
        refine ⟨q, rfl, ⟨h, hd.stop ?_⟩, rfl, fun _ _ => rfl⟩
        intro c hc0 hcn hcp
        have := hmin c hc0 hcn hcp
        rw [keyAt_eq hxs] at this
        rw [keyAt_eq hxp]; omega
      · rw [if_neg hk]
        obtain ⟨q1, e1, h1, h2, h3, h4⟩ := swapEntries_spec h hpos (j := s) (by omega) (by omega)
        rw [e1, Option.bind_some]
        have hd' := hd.swap (s := s) (by omega) (by omega) hsp hmin
          (by rw [keyAt_eq hxs, keyAt_eq hxp]; omega)
        obtain ⟨q2, e2, h5, h6, h7⟩ := moveDown_spec (fuel := fuel) (pos := s) h1 (by omega)
          (by omega) (by rw [h2]; exact hd'.congr h3)
        refine ⟨q2, e2, h5, by omega, ?_⟩
        intro p hp'
        rw [h7 p (by omega), h4 p hp']

/-! ### Operations on the abstract map -/

theorem rep_new (hn : n ≤ maxIds) : Rep (new n) n (fun _ => none) := by
  refine ⟨⟨hn, by simp [new], by simp [new], by simp [new], ?_, ?_, ?_⟩, ?_⟩
  · intro p hp; simp [new] at hp
  · intro id hid _
    simp only [new]; exact rd_replicate hid
  · intro id k hk; cases hk
  · intro p h1 h2; simp [new] at h2

theorem Rep.containsId (h : Rep q n m) {id : Nat} (hid : id < n) :
    q.containsId id = some (m id).isSome := by
  unfold MinIDQueue.containsId idCount
  have c : decide (id < q.idPos.length) = true := by simp [h.pos.lenP, hid]
  rw [c]
  simp only [check_true, Option.bind_eq_bind, Option.bind_some]
  cases hm : m id with
  | none =>
    rw [h.pos.fwd_none id hid hm]; simp
  | some k =>
    obtain ⟨_, p, hp, hpos, _⟩ := h.pos.fwd_some id k hm
    have := h.pos.hn
    have := h.pos.size_le
    rw [hpos]
    simp [invalidId]
    unfold maxIds at *
    omega

theorem Rep.getKey (h : Rep q n m) {id k : Nat} (hk : m id = some k) :
    q.getKey id = some k := by
  obtain ⟨hid, p, hp, hpos, hrd⟩ := h.pos.fwd_some id k hk
  have hn := h.pos.hn
  have := h.pos.size_le
  unfold MinIDQueue.getKey idCount
  have c : decide (id < q.idPos.length) = true := by simp [h.pos.lenP, hid]
  have c2 : (p != invalidId) = true := by
    simp [invalidId]; unfold maxIds at *; omega
  simp only [c, check_true, Option.bind_eq_bind, Option.bind_some, hpos, c2, hrd]

theorem Rep.empty_iff (h : Rep q n m) : q.empty = true ↔ ∀ id, m id = none := by
  unfold MinIDQueue.empty
  rw [beq_iff_eq]
  constructor
  · intro h0 id
    cases hm : m id with
    | none => rfl
    | some k =>
      obtain ⟨_, p, hp, _⟩ := h.pos.fwd_some id k hm
      omega
  · intro hall
    by_contra hne
    obtain ⟨e, _, _, _, he⟩ := h.pos.bwd 0 (by omega)
    rw [hall] at he; cases he

theorem Ord.root {K : Nat → Nat} {n : Nat} (h : Ord K n) : ∀ p, p < n → K 0 ≤ K p := by
  intro p
  induction p using Nat.strongRecOn with
  | _ p ih =>
    intro hp
    by_cases hp0 : p = 0
    · subst hp0; exact Nat.le_refl _
    · have h1 := ih ((p - 1) / 4) (by omega) (by omega)
      have h2 := h p (by omega) hp
      omega

/-- the element at position 0 is minimal -/
theorem Rep.root_min (h : Rep q n m) {e : IDKeyPair} (he : rd q.heap 0 = some e) {id k : Nat}
    (hk : m id = some k) : e.key ≤ k := by
  obtain ⟨_, p, hp, _, hrd⟩ := h.pos.fwd_some id k hk
  rw [← keyAt_eq he]
  have : k = keyAt q.heap p := by rw [keyAt_eq hrd]
  rw [this]
  exact h.ord.root p hp

theorem Rep.peek (h : Rep q n m) (hne : ∃ id, m id ≠ none) :
    ∃ e, q.peek = some e ∧ m e.id = some e.key ∧ ∀ id k, m id = some k → e.key ≤ k := by
  have hsz : 0 < q.heapSize := by
    obtain ⟨id, hid⟩ := hne
    cases hm : m id with
    | none => exact absurd hm hid
    | some k =>
      obtain ⟨_, p, hp, _⟩ := h.pos.fwd_some id k hm
      omega
  obtain ⟨e, he, _, _, hem⟩ := h.pos.bwd 0 hsz
  refine ⟨e, ?_, hem, fun id k hk => h.root_min he hk⟩
  unfold MinIDQueue.peek MinIDQueue.empty
  have c : (!(q.heapSize == 0)) = true := by simp; omega
  simp only [c, check_true, Option.bind_eq_bind, Option.bind_some, he]

theorem Rep.push (h : Rep q n m) {p : IDKeyPair} (hid : p.id < n) (hm : m p.id = none) :
    ∃ q', q.push p = some q' ∧
      Rep q' n (fun id => if id = p.id then some p.key else m id) := by
  unfold MinIDQueue.push
  have c : decide (p.id < q.idCount) = true := by simp [idCount, h.pos.lenP, hid]
  rw [h.containsId hid, hm]
  simp only [c, check_true, Option.bind_eq_bind, Option.bind_some, Option.isSome_none, Bool.not_false]
  -- heapSize < n as p.id is not in the heap
  have hsz : q.heapSize < n := by
    by_contra hge
    have hsz := h.pos.size_le
    have heq : q.heapSize = n := by omega
    let ids := q.heap.map (·.id)
    have hnd : ids.Nodup := by
      rw [List.nodup_iff_injective_getElem]
      intro i j hij
      apply Fin.ext
      have hi := i.2; have hj := j.2
      simp only [ids, List.length_map, h.pos.lenH] at hi hj
      have hi' : (i : Nat) < q.heap.length := by rw [h.pos.lenH]; exact hi
      have hj' : (j : Nat) < q.heap.length := by rw [h.pos.lenH]; exact hj
      refine h.pos.id_inj (by omega) (by omega) (rd_lt hi') (rd_lt hj') ?_
      simpa [ids] using hij
    have hsub : ids ⊆ List.range n := by
      intro x hx
      simp only [ids, List.mem_map] at hx
      obtain ⟨e, he, rfl⟩ := hx
      obtain ⟨i, hi, ei⟩ := List.getElem_of_mem he
      obtain ⟨e', he', hlt, _⟩ := h.pos.bwd i (by rw [heq, ← h.pos.lenH]; exact hi)
      rw [rd_lt hi, ei] at he'; cases he'
      exact List.mem_range.2 hlt
    have hperm := (hnd.subperm hsub).perm_of_length_le (by simp [ids, h.pos.lenH])
    have hmem : p.id ∈ ids := hperm.mem_iff.2 (List.mem_range.2 hid)
    simp only [ids, List.mem_map] at hmem
    obtain ⟨e, he, hide⟩ := hmem
    obtain ⟨i, hi, ei⟩ := List.getElem_of_mem he
    obtain ⟨e', he', _, _, hem⟩ := h.pos.bwd i (by rw [heq, ← h.pos.lenH]; exact hi)
    rw [rd_lt hi, ei] at he'; cases he'
    rw [hide, hm] at hem; cases hem
  have hlt : q.heapSize < q.heap.length := by rw [h.pos.lenH]; exact hsz
  have hltp : p.id < q.idPos.length := by rw [h.pos.lenP]; exact hid
  simp only [wr_lt hlt, wr_lt hltp, Option.bind_some]
  let q1 : MinIDQueue := ⟨q.idPos.set p.id q.heapSize, q.heap.set q.heapSize p, q.heapSize + 1⟩
  have hh : ∀ i, rd q1.heap i = if i = q.heapSize then some p else rd q.heap i := by
    intro i; exact rd_set hlt
  have hpp : ∀ i, rd q1.idPos i = if i = p.id then some q.heapSize else rd q.idPos i := by
    intro i; exact rd_set hltp
  have hne : ∀ i e, i < q.heapSize → rd q.heap i = some e → e.id ≠ p.id := by
    intro i e hi he hide
    obtain ⟨e', he', _, _, hem⟩ := h.pos.bwd i hi
    rw [he] at he'; cases he'
    rw [hide, hm] at hem; cases hem
  have hpos1 : PosRep q1 n (fun id => if id = p.id then some p.key else m id) := by
    refine ⟨h.pos.hn, by simpa [q1] using h.pos.lenP, by simpa [q1] using h.pos.lenH, hsz, ?_, ?_, ?_⟩
    · intro i hi
      rw [hh]
      by_cases hi' : i = q.heapSize
      · subst hi'
        exact ⟨p, by simp, hid, by rw [hpp]; simp, by simp⟩
      · obtain ⟨e, he, hen, hep, hem⟩ := h.pos.bwd i (by simp [q1] at hi; omega)
        have hid' := hne i e (by simp [q1] at hi; omega) he
        exact ⟨e, by simp [hi', he], hen, by rw [hpp]; simp [hid', hep], by simp [hid', hem]⟩
    · intro id hidn hmn
      rw [hpp]
      by_cases h1 : id = p.id
      · simp [h1] at hmn
      · simp only [if_neg h1] at hmn ⊢
        exact h.pos.fwd_none id hidn hmn
    · intro id k hk
      by_cases h1 : id = p.id
      · subst h1
        simp only [if_true, Option.some.injEq] at hk
        subst hk
        exact ⟨hid, q.heapSize, by simp [q1], by rw [hpp]; simp, by rw [hh]; simp⟩
      · simp only [if_neg h1] at hk
        obtain ⟨hidn, i, hi, hpos, hrd⟩ := h.pos.fwd_some id k hk
        exact ⟨hidn, i, by simp [q1]; omega, by rw [hpp]; simp [h1, hpos],
          by rw [hh, if_neg (by omega)]; exact hrd⟩
  have hup : UpOK (keyAt q1.heap) q1.heapSize q.heapSize := by
    have hk : ∀ i, i < q.heapSize → keyAt q1.heap i = keyAt q.heap i := by
      intro i hi
      unfold keyAt; rw [hh, if_neg (by omega)]
    constructor
    · intro i h0 h1 h2
      have : i < q.heapSize := by simp [q1] at h1; omega
      rw [hk _ (by omega), hk _ this]
      exact h.ord i h0 this
    · intro c h0 h1 h2 h3
      simp [q1] at h1; omega
  obtain ⟨q', e, h1, _⟩ := moveUp_spec (fuel := q.heapSize + 1) hpos1 (by omega) (by simp [q1]) hup
  exact ⟨q', e, h1⟩

theorem Rep.decreaseKey (h : Rep q n m) {p : IDKeyPair} {k : Nat} (hm : m p.id = some k) :
    ∃ q', q.decreaseKey p = some (q', decide (p.key < k)) ∧
      Rep q' n (fun id => if id = p.id then some (min k p.key) else m id) := by
  obtain ⟨hid, i, hi, hpos, hrd⟩ := h.pos.fwd_some _ k hm
  have hsz := h.pos.size_le
  unfold MinIDQueue.decreaseKey
  have c : decide (p.id < q.idCount) = true := by simp [idCount, h.pos.lenP, hid]
  rw [h.containsId hid, hm]
  simp only [c, check_true, Option.bind_eq_bind, Option.bind_some, Option.isSome_some, hpos, hrd]
  by_cases hk : k > p.key
  · rw [if_pos hk]
    have hlt : i < q.heap.length := by rw [h.pos.lenH]; omega
    simp only [wr_lt hlt, Option.bind_some]
    let q1 : MinIDQueue := { q with heap := q.heap.set i ⟨p.id, p.key⟩ }
    have hh : ∀ j, rd q1.heap j = if j = i then some ⟨p.id, p.key⟩ else rd q.heap j := by
      intro j; exact rd_set hlt
    have hpos1 : PosRep q1 n (fun id => if id = p.id then some (min k p.key) else m id) := by
      refine ⟨h.pos.hn, h.pos.lenP, by simpa [q1] using h.pos.lenH, hsz, ?_, ?_, ?_⟩
      · intro j hj
        rw [hh]
        by_cases hji : j = i
        · subst hji
          exact ⟨⟨p.id, p.key⟩, by simp, hid, hpos, by simp; omega⟩
        · obtain ⟨e, he, hen, hep, hem⟩ := h.pos.bwd j hj
          have : e.id ≠ p.id := fun hh' => hji (h.pos.id_inj hj hi he hrd hh')
          exact ⟨e, by simp [hji, he], hen, hep, by simp [this, hem]⟩
      · intro id hidn hmn
        by_cases h1 : id = p.id
        · simp [h1] at hmn
        · simp only [if_neg h1] at hmn
          exact h.pos.fwd_none id hidn hmn
      · intro id k' hk'
        by_cases h1 : id = p.id
        · subst h1
          simp only [if_true, Option.some.injEq] at hk'
          refine ⟨hid, i, hi, hpos, ?_⟩
          rw [hh, if_pos rfl, show k' = p.key by omega]
        · simp only [if_neg h1] at hk'
          obtain ⟨hidn, j, hj, hpos', hrd'⟩ := h.pos.fwd_some id k' hk'
          refine ⟨hidn, j, hj, hpos', ?_⟩
          rw [hh, if_neg]
          · exact hrd'
          · rintro rfl
            rw [hrd] at hrd'
            injection hrd' with hrd'
            injection hrd' with hrd'
            exact h1 hrd'.symm
    have hup : UpOK (keyAt q1.heap) q1.heapSize i := by
      have hk1 : ∀ j, j ≠ i → keyAt q1.heap j = keyAt q.heap j := by
        intro j hj; unfold keyAt; rw [hh, if_neg hj]
      have hk2 : keyAt q1.heap i ≤ keyAt q.heap i := by
        rw [keyAt_eq hrd, keyAt_eq (e := ⟨p.id, p.key⟩) (by rw [hh]; simp)]
        simp only; omega
      have hle : ∀ j, keyAt q1.heap j ≤ keyAt q.heap j := by
        intro j
        by_cases hj : j = i
        · subst hj; exact hk2
        · rw [hk1 j hj]; exact Nat.le_refl _
      constructor
      · intro j h0 h1 h2
        rw [hk1 j h2]
        exact Nat.le_trans (hle _) (h.ord j h0 h1)
      · intro c h0 h1 h2 h3
        rw [hk1 _ (by omega), hk1 _ (by omega)]
        have a1 := h.ord c h0 h1
        have a2 := h.ord i h3 hi
        rw [h2] at a1
        omega
    obtain ⟨q', e, h1, _⟩ := moveUp_spec (fuel := i + 1) hpos1 (by omega) hi hup
    refine ⟨q', ?_, h1⟩
    have e' := congrArg (fun o => Option.bind o (fun q => some (q, true))) e
    refine Eq.trans e' ?_
    simp [hk]
  · rw [if_neg hk]
    refine ⟨q, by simp; omega, ?_⟩
    have : (fun id => if id = p.id then some (min k p.key) else m id) = m := by
      funext id
      split
      · rename_i h1; rw [h1, hm]; congr 1; omega
      · rfl
    rw [this]; exact h

theorem Rep.increaseKey (h : Rep q n m) {p : IDKeyPair} {k : Nat} (hm : m p.id = some k) :
    ∃ q', q.increaseKey p = some (q', decide (k < p.key)) ∧
      Rep q' n (fun id => if id = p.id then some (max k p.key) else m id) := by
  obtain ⟨hid, i, hi, hpos, hrd⟩ := h.pos.fwd_some _ k hm
  have hsz := h.pos.size_le
  unfold MinIDQueue.increaseKey
  have c : decide (p.id < q.idCount) = true := by simp [idCount, h.pos.lenP, hid]
  rw [h.containsId hid, hm]
  simp only [c, check_true, Option.bind_eq_bind, Option.bind_some, Option.isSome_some, hpos, hrd]
  by_cases hk : k < p.key
  · rw [if_pos hk]
    have hlt : i < q.heap.length := by rw [h.pos.lenH]; omega
    simp only [wr_lt hlt, Option.bind_some]
    let q1 : MinIDQueue := { q with heap := q.heap.set i ⟨p.id, p.key⟩ }
    have hh : ∀ j, rd q1.heap j = if j = i then some ⟨p.id, p.key⟩ else rd q.heap j := by
      intro j; exact rd_set hlt
    have hpos1 : PosRep q1 n (fun id => if id = p.id then some (max k p.key) else m id) := by
      refine ⟨h.pos.hn, h.pos.lenP, by simpa [q1] using h.pos.lenH, hsz, ?_, ?_, ?_⟩
      · intro j hj
        rw [hh]
        by_cases hji : j = i
        · subst hji
          exact ⟨⟨p.id, p.key⟩, by simp, hid, hpos, by simp; omega⟩
        · obtain ⟨e, he, hen, hep, hem⟩ := h.pos.bwd j hj
          have : e.id ≠ p.id := fun hh' => hji (h.pos.id_inj hj hi he hrd hh')
          exact ⟨e, by simp [hji, he], hen, hep, by simp [this, hem]⟩
      · intro id hidn hmn
        by_cases h1 : id = p.id
        · simp [h1] at hmn
        · simp only [if_neg h1] at hmn
          exact h.pos.fwd_none id hidn hmn
      · intro id k' hk'
        by_cases h1 : id = p.id
        · subst h1
          simp only [if_true, Option.some.injEq] at hk'
          refine ⟨hid, i, hi, hpos, ?_⟩
          rw [hh, if_pos rfl, show k' = p.key by omega]
        · simp only [if_neg h1] at hk'
          obtain ⟨hidn, j, hj, hpos', hrd'⟩ := h.pos.fwd_some id k' hk'
          refine ⟨hidn, j, hj, hpos', ?_⟩
          rw [hh, if_neg]
          · exact hrd'
          · rintro rfl
            rw [hrd] at hrd'
            injection hrd' with hrd'
            injection hrd' with hrd'
            exact h1 hrd'.symm
    have hdn : DownOK (keyAt q1.heap) q1.heapSize i := by
      have hk1 : ∀ j, j ≠ i → keyAt q1.heap j = keyAt q.heap j := by
        intro j hj; unfold keyAt; rw [hh, if_neg hj]
      have hk2 : keyAt q.heap i ≤ keyAt q1.heap i := by
        rw [keyAt_eq hrd, keyAt_eq (e := ⟨p.id, p.key⟩) (by rw [hh]; simp)]
        simp only; omega
      have hle : ∀ j, keyAt q.heap j ≤ keyAt q1.heap j := by
        intro j
        by_cases hj : j = i
        · subst hj; exact hk2
        · rw [hk1 j hj]; exact Nat.le_refl _
      constructor
      · intro j h0 h1 h2
        rw [hk1 _ h2]
        exact Nat.le_trans (h.ord j h0 h1) (hle _)
      · intro c h0 h1 h2 h3
        rw [hk1 _ (by omega), hk1 _ (by omega)]
        have a1 := h.ord c h0 h1
        have a2 := h.ord i h3 hi
        rw [h2] at a1
        omega
    obtain ⟨q', e, h1, _⟩ := moveDown_spec (fuel := q.heapSize + 1) hpos1
      (show q.heapSize < q.heapSize + 1 + i by omega) (Or.inl hi) hdn
    refine ⟨q', ?_, h1⟩
    have e' := congrArg (fun o => Option.bind o (fun q => some (q, true))) e
    refine Eq.trans e' ?_
    simp [hk]
  · rw [if_neg hk]
    refine ⟨q, by simp; omega, ?_⟩
    have : (fun id => if id = p.id then some (max k p.key) else m id) = m := by
      funext id
      split
      · rename_i h1; rw [h1, hm]; congr 1; omega
      · rfl
    rw [this]; exact h

theorem Rep.pop (h : Rep q n m) (hne : ∃ id, m id ≠ none) :
    ∃ q' e, q.pop = some (q', e) ∧ m e.id = some e.key ∧ (∀ id k, m id = some k → e.key ≤ k) ∧
      Rep q' n (fun id => if id = e.id then none else m id) := by
  have hsz : 0 < q.heapSize := by
    obtain ⟨id, hid⟩ := hne
    cases hm : m id with
    | none => exact absurd hm hid
    | some k =>
      obtain ⟨_, p, hp, _⟩ := h.pos.fwd_some id k hm
      omega
  have hsn := h.pos.size_le
  obtain ⟨a, ha, han, hap, ham⟩ := h.pos.bwd 0 hsz
  obtain ⟨b, hb, hbn, hbp, hbm⟩ := h.pos.bwd (q.heapSize - 1) (by omega)
  have h0 : 0 < q.heap.length := by rw [h.pos.lenH]; omega
  have hn1 : q.heapSize - 1 < (q.heap.set 0 b).length := by simp [h.pos.lenH]; omega
  have hbl : b.id < q.idPos.length := by rw [h.pos.lenP]; exact hbn
  have hal : a.id < (q.idPos.set b.id 0).length := by simp [h.pos.lenP]; exact han
  have hheap : ∀ p, rd ((q.heap.set 0 b).set (q.heapSize - 1) a) p =
      if p = q.heapSize - 1 then some a else if p = 0 then some b else rd q.heap p := by
    intro p; rw [rd_set hn1, rd_set h0]
  -- reading heap[0] gives b in all cases
  have hr0 : rd ((q.heap.set 0 b).set (q.heapSize - 1) a) 0 = some b := by
    rw [hheap]
    by_cases h1 : 0 = q.heapSize - 1
    · rw [if_pos h1]
      rw [← h1, ha] at hb; exact hb
    · rw [if_neg h1, if_pos rfl]
  have hrn : rd ((q.heap.set 0 b).set (q.heapSize - 1) a) (q.heapSize - 1) = some a := by
    rw [hheap, if_pos rfl]
  unfold MinIDQueue.pop MinIDQueue.empty
  have c : (!(q.heapSize == 0)) = true := by simp; omega
  simp only [c, check_true, Option.bind_eq_bind, Option.bind_some, ha, hb, wr_lt h0, wr_lt hn1, hr0,
    hrn, wr_lt hbl, wr_lt hal]
  let q1 : MinIDQueue := ⟨(q.idPos.set b.id 0).set a.id invalidId,
    (q.heap.set 0 b).set (q.heapSize - 1) a, q.heapSize - 1⟩
  have hidp : ∀ p, rd q1.idPos p =
      if p = a.id then some invalidId else if p = b.id then some 0 else rd q.idPos p := by
    intro p; exact (rd_set hal).trans (by rw [rd_set hbl])
  have hpos1 : PosRep q1 n (fun id => if id = a.id then none else m id) := by
    refine ⟨h.pos.hn, by simpa [q1] using h.pos.lenP, by simpa [q1] using h.pos.lenH,
      by simp [q1]; omega, ?_, ?_, ?_⟩
    · intro p hp
      have hp' : p < q.heapSize - 1 := hp
      rw [show rd q1.heap p = _ from hheap p, if_neg (by omega)]
      by_cases hp0 : p = 0
      · subst hp0
        have hba : b.id ≠ a.id := by
          intro hh
          have := h.pos.id_inj (p1 := q.heapSize - 1) (p2 := 0) (by omega) hsz hb ha hh
          omega
        exact ⟨b, by simp, hbn, by rw [hidp]; simp [hba], by simp [hba, hbm]⟩
      · obtain ⟨e, he, hen, hep, hem⟩ := h.pos.bwd p (by omega)
        have h1 : e.id ≠ a.id := by
          intro hh
          have := h.pos.id_inj (p1 := p) (p2 := 0) (by omega) hsz he ha hh
          omega
        have h2 : e.id ≠ b.id := by
          intro hh
          have := h.pos.id_inj (p1 := p) (p2 := q.heapSize - 1) (by omega) (by omega) he hb hh
          omega
        exact ⟨e, by simp [hp0, he], hen, by rw [hidp]; simp [h1, h2, hep], by simp [h1, hem]⟩
    · intro id hidn hmn
      rw [hidp]
      by_cases h1 : id = a.id
      · simp [h1]
      · simp only [if_neg h1] at hmn ⊢
        have h2 : id ≠ b.id := by rintro rfl; rw [hbm] at hmn; cases hmn
        rw [if_neg h2]
        exact h.pos.fwd_none id hidn hmn
    · intro id k hk
      by_cases h1 : id = a.id
      · simp [h1] at hk
      · simp only [if_neg h1] at hk
        obtain ⟨hidn, p, hp, hpos, hrd⟩ := h.pos.fwd_some id k hk
        refine ⟨hidn, ?_⟩
        have hp0 : p ≠ 0 := by
          rintro rfl
          rw [ha] at hrd; cases hrd
          exact h1 rfl
        by_cases h2 : id = b.id
        · subst h2
          have hpl : p = q.heapSize - 1 := by
            rw [hbp] at hpos; injection hpos with hpos; exact hpos.symm
          refine ⟨0, by simp only [q1]; omega, by rw [hidp]; simp [h1], ?_⟩
          rw [show rd q1.heap 0 = some b from hr0]
          rw [hpl, hb] at hrd; exact hrd
        · have hpl : p ≠ q.heapSize - 1 := by
            rintro rfl
            rw [hb] at hrd; cases hrd
            exact h2 rfl
          refine ⟨p, by simp only [q1]; omega, by rw [hidp]; simp [h1, h2, hpos], ?_⟩
          rw [show rd q1.heap p = _ from hheap p, if_neg hpl, if_neg hp0]; exact hrd
  have hdn : DownOK (keyAt q1.heap) q1.heapSize 0 := by
    have hk1 : ∀ j, j ≠ 0 → j < q.heapSize - 1 → keyAt q1.heap j = keyAt q.heap j := by
      intro j hj hj2
      unfold keyAt; rw [show rd q1.heap j = _ from hheap j, if_neg (by omega), if_neg hj]
    constructor
    · intro p hp0 hpn hp
      have hpn' : p < q.heapSize - 1 := hpn
      rw [hk1 _ (by omega) (by omega), hk1 _ (by omega) (by omega)]
      exact h.ord p hp0 (by omega)
    · intro c _ _ _ h4; omega
  obtain ⟨q', e, h1, h2, h3⟩ := moveDown_spec (fuel := q.heapSize - 1 + 1) (pos := 0) hpos1
    (show q.heapSize - 1 < q.heapSize - 1 + 1 + 0 by omega)
    (show 0 < q.heapSize - 1 ∨ 0 = 0 ∧ q.heapSize - 1 = 0 by omega) hdn
  refine ⟨q', a, ?_, ham, fun id k hk => h.root_min ha hk, h1⟩
  have e' := congrArg (fun o => Option.bind o (fun q' : MinIDQueue =>
    (rd q'.heap (q.heapSize - 1)).bind fun r => some (q', r))) e
  refine Eq.trans e' ?_
  simp only [Option.bind_some]
  rw [h3 (q.heapSize - 1) (Nat.le_refl _)]
  rw [show rd q1.heap (q.heapSize - 1) = some a from hrn]
  rfl

theorem Rep.clear (h : Rep q n m) : ∃ q', q.clear = some q' ∧ Rep q' n (fun _ => none) := by
  have hsn := h.pos.size_le
  unfold MinIDQueue.clear
  obtain ⟨idPos, e, h1, h2⟩ := forRange_inv (lo := 0) (hi := q.heapSize) (s := q.idPos)
    (f := fun (idPos : List Nat) i => (rd q.heap i).bind fun e => wr idPos e.id invalidId)
    (fun i idPos => idPos.length = n ∧ ∀ id, id < n → (rd idPos id = some invalidId ∨
      ∃ p, i ≤ p ∧ p < q.heapSize ∧ rd idPos id = some p ∧ ∃ e, rd q.heap p = some e ∧ e.id = id))
    (by omega)
    ⟨h.pos.lenP, by
      intro id hid
      cases hm : m id with
      | none => left; exact h.pos.fwd_none id hid hm
      | some k =>
        right
        obtain ⟨_, p, hp, hpos, hrd⟩ := h.pos.fwd_some id k hm
        exact ⟨p, Nat.zero_le _, hp, hpos, _, hrd, rfl⟩⟩
    (by
      rintro i idPos _ hi ⟨hl, hv⟩
      obtain ⟨e, he, hen, hep, hem⟩ := h.pos.bwd i hi
      have hlt : e.id < idPos.length := by omega
      refine ⟨idPos.set e.id invalidId, by simp only [he, Option.bind_some, wr_lt hlt],
        by simpa using hl, ?_⟩
      intro id hid
      rw [rd_set hlt]
      by_cases hide : id = e.id
      · left; simp [hide]
      · rw [if_neg hide]
        rcases hv id hid with h1 | ⟨p, h1, h2, h3, e', h4, h5⟩
        · left; exact h1
        · right
          refine ⟨p, ?_, h2, h3, e', h4, h5⟩
          have : p ≠ i := by
            rintro rfl
            rw [he] at h4; cases h4
            exact hide h5.symm
          omega)
  have e' := congrArg (fun o => Option.bind o (fun idPos =>
    some ({ q with idPos := idPos, heapSize := 0 } : MinIDQueue))) e
  refine ⟨_, e', ⟨⟨h.pos.hn, h1, h.pos.lenH, by simp, ?_, ?_, ?_⟩, ?_⟩⟩
  · intro p hp; simp at hp
  · intro id hid _
    rcases h2 id hid with h3 | ⟨p, h3, h4, _⟩
    · exact h3
    · omega
  · intro id k hk; cases hk
  · intro p h1 h2; simp at h2

/-- `size()` is the number of contained ids -/
theorem Rep.size (h : Rep q n m) :
    q.size = ((List.range n).filter fun id => (m id).isSome).length := by
  unfold MinIDQueue.size
  have hsn := h.pos.size_le
  let ids := (q.heap.take q.heapSize).map (·.id)
  have hlen : ids.length = q.heapSize := by simp [ids, h.pos.lenH]; omega
  rw [← hlen]
  apply List.Perm.length_eq
  rw [List.perm_ext_iff_of_nodup]
  · intro id
    simp only [ids, List.mem_map, List.mem_filter, List.mem_range]
    constructor
    · rintro ⟨e, he, rfl⟩
      obtain ⟨i, hi, ei⟩ := List.getElem_of_mem he
      have hi' : i < q.heapSize := by simp at hi; omega
      obtain ⟨e', he', hen, _, hem⟩ := h.pos.bwd i hi'
      have hil : i < q.heap.length := by rw [h.pos.lenH]; omega
      rw [rd_lt hil] at he'
      rw [List.getElem_take] at ei
      rw [ei] at he'; cases he'
      exact ⟨hen, by rw [hem]; rfl⟩
    · rintro ⟨hid, hm⟩
      obtain ⟨k, hk⟩ := Option.isSome_iff_exists.1 hm
      obtain ⟨_, p, hp, _, hrd⟩ := h.pos.fwd_some id k hk
      refine ⟨⟨id, k⟩, ?_, rfl⟩
      have hpl := rd_some_lt hrd
      rw [rd_lt hpl] at hrd
      injection hrd with hrd
      rw [← hrd]
      apply List.mem_iff_getElem.2
      exact ⟨p, by simp; omega, by simp⟩
  · rw [List.nodup_iff_injective_getElem]
    intro i j hij
    apply Fin.ext
    have hi : (i : Nat) < q.heapSize := Nat.lt_of_lt_of_eq i.2 hlen
    have hj : (j : Nat) < q.heapSize := Nat.lt_of_lt_of_eq j.2 hlen
    have hi' : (i : Nat) < q.heap.length := by rw [h.pos.lenH]; omega
    have hj' : (j : Nat) < q.heap.length := by rw [h.pos.lenH]; omega
    refine h.pos.id_inj hi hj (rd_lt hi') (rd_lt hj') ?_
    simpa [ids] using hij
  · exact List.nodup_range.filter _

end MinIDQueue
end RK
