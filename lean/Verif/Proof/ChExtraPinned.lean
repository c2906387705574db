import Verif.Proof.ChExtra
/-! Helper lemmas: extra weights for pinned nodes. -/
namespace RK
open Spec
variable {W : Type}

/-! ### The path of a label -/

/-- The arcs on the path of `x` from the node `s`, where it starts; its length with the offset is `d`.
`h0` is the half after the search, `h` after the sweep; `true` marks arcs of `S`. -/
inductive Tr (S O : ChSide) (src : List (Nat × Nat)) (h0 h : ChHalf) (P : Nat → Bool) :
    Nat → List (Bool × Nat) → Nat → Nat → Prop
  | src {x : Nat} (hP : P x = true) (hp : fn h0.predNode x = invalidId) (hs : (x, fn h0.dist x) ∈ src) :
      Tr S O src h0 h P x [] x (fn h0.dist x)
  | up {x p a w s d : Nat} {as : List (Bool × Nat)} (hP : P x = true) (hp : fn h0.predNode x = p) (ha : fn h.predArc x = a)
      (hA : S.Arc a p x w) (hPp : P p = true) (ht : Tr S O src h0 h P p as s d) :
      Tr S O src h0 h P x (as ++ [(true, a)]) s (d + w)
  | down {x y a w s d : Nat} {as : List (Bool × Nat)} (hP : P x = false) (ha : fn h.predArc x = a)
      (hA : O.Arc a x y w) (ht : Tr S O src h0 h P y as s d) :
      Tr S O src h0 h P x (as ++ [(false, a)]) s (d + w)

section
variable {n : Nat} {S O : ChSide} {src : List (Nat × Nat)} {sel : List Nat} {k : Nat} {h0 h : ChHalf} {P0 P : Nat → Bool}

theorem PinnedDone.flag_lt (hd : PinnedDone n S O src sel k h0 P0 h P) (hsel : SelOk n O sel k) {x : Nat} (hx : P x = true) :
    x < n := by
  obtain ⟨T, hI⟩ := hd.search
  by_cases hsw : ∃ j, j < k ∧ fn sel j = x
  · obtain ⟨j, hj, rfl⟩ := hsw; exact hsel.lt j hj
  · rw [(hd.sweep.rest x (fun j hj he => hsw ⟨j, hj, he⟩)).1] at hx
    exact (hI.small x hx).1

theorem PinnedDone.tight_flag (hd : PinnedDone n S O src sel k h0 P0 h P) (hS : UpSide n S) (hO : UpSide n O) (hn : n ≤ invalidId)
    (hsel : SelOk n O sel k) {u : Nat} (hP0 : P0 u = true) (htight : ∀ d, Reach S O src u d → fn h0.dist u ≤ d) : P u = true := by
  by_cases hsw : ∃ j, j < k ∧ fn sel j = u
  · obtain ⟨j, hj, rfl⟩ := hsw
    have hc := hd.reach hS hO hn hsel hj
    cases hd.sweep.swept j hj with
    | up hP _ _ _ _ => exact hP
    | down hP a y w hA ha hd' hlt hlt0 hm =>
      have h1 := hlt0 hP0
      have h2 := htight _ (hc hlt)
      omega
    | inf hP hP0' _ _ _ => rw [hP0] at hP0'; cases hP0'
  · rw [(hd.sweep.rest u (fun j hj he => hsw ⟨j, hj, he⟩)).1]; exact hP0

theorem PinnedDone.tr_up (hd : PinnedDone n S O src sel k h0 P0 h P) (hS : UpSide n S) (hO : UpSide n O) (hn : n ≤ invalidId)
    (hsel : SelOk n O sel k) : ∀ N u, u < N → P0 u = true → (∀ d, Reach S O src u d → fn h0.dist u ≤ d) →
    ∃ as s, Tr S O src h0 h P u as s (fn h0.dist u)
  | 0, u, hu, _, _ => absurd hu (Nat.not_lt_zero u)
  | N + 1, u, hu, hP0, htight => by
    obtain ⟨T, hI⟩ := hd.search
    have hPu := hd.tight_flag hS hO hn hsel hP0 htight
    rcases hI.why u hP0 with ⟨h1, h2⟩ | ⟨p, a, w, h1, h2, h3, h4, h5, h6⟩
    · exact ⟨[], u, .src hPu h1 h2⟩
    · obtain ⟨k1, k2, k3⟩ := hS.arc h3
      have ht : ∀ d, Reach S O src p d → fn h0.dist p ≤ d := by
        intro d hr
        have := htight _ (hr.step (Or.inl ⟨a, h3⟩))
        omega
      obtain ⟨as, s, hT⟩ := hd.tr_up hS hO hn hsel N p (by omega) h4 ht
      refine ⟨as ++ [(true, a)], s, ?_⟩
      rw [h6]
      exact .up hPu h1 ((hd.sweep.parc u hPu).trans h2) h3 (hd.tight_flag hS hO hn hsel h4 ht) hT

theorem PinnedDone.tr_sel (hd : PinnedDone n S O src sel k h0 P0 h P) (hS : UpSide n S) (hO : UpSide n O) (hn : n ≤ invalidId)
    (hH : HierB n (fun x => x) S.R O.R infWeight) (hsel : SelOk n O sel k) :
    ∀ N j, j < k → n < N + fn sel j → fn h.dist (fn sel j) < infWeight →
    ∃ as s, Tr S O src h0 h P (fn sel j) as s (fn h.dist (fn sel j))
  | 0, j, hj, hf, _ => by have := hsel.lt j hj; omega
  | N + 1, j, hj, hf, hlt => by
    cases hd.sweep.swept j hj with
    | up hP hP0 hd' hlt hm =>
      rw [hd']
      refine hd.tr_up hS hO hn hsel (fn sel j + 1) _ (by omega) hP0 ?_
      intro d hr
      rw [← hd']
      by_cases hdi : d < infWeight
      · exact hd.lower hH hsel hj hr hdi
      · have := (hd.sweep.swept j hj).le_inf
        omega
    | down hP a y w hA ha hd' hlt hlt0 hm =>
      obtain ⟨j', hj', hy⟩ := hsel.closed j y w hj ⟨a, hA⟩
      obtain ⟨h1, h2, _⟩ := hO.arc hA
      obtain ⟨as, s, hT⟩ := hd.tr_sel hS hO hn hH hsel N j' hj' (by rw [hy]; omega) (by rw [hy]; omega)
      rw [hy] at hT
      refine ⟨as ++ [(false, a)], s, ?_⟩
      rw [hd']
      exact .down hP ha hA hT
    | inf hP hP0 hd' ha hm => omega

theorem PinnedDone.tr_chain (hd : PinnedDone n S O src sel k h0 P0 h P) (hS : UpSide n S) (hn : n ≤ invalidId)
    (hsel : SelOk n O sel k) {x s d : Nat} {as : List (Bool × Nat)} (ht : Tr S O src h0 h P x as s d) :
    P x = true → ∀ fuel, x < fuel → ∃ arcs, ChHalf.chain h fuel x = some (arcs, s) := by
  obtain ⟨T, hI⟩ := hd.search
  have hpn : ∀ x, P x = true → rd h.predNode x = some (fn h0.predNode x) := by
    intro x hx
    rw [hd.sweep.plen]; exact rd_fn (by rw [hI.plen]; exact hd.flag_lt hsel hx)
  induction ht with
  | src hP hp hs =>
    rintro - (_ | fuel) hf
    · omega
    · exact ⟨[], by unfold ChHalf.chain; simp [hpn _ hP, hp]⟩
  | @up x p a w s d as hP hp ha hA hPp ht ih =>
    rintro - (_ | fuel) hf
    · omega
    · obtain ⟨k1, k2, k3⟩ := hS.arc hA
      obtain ⟨arcs, e⟩ := ih hPp fuel (by omega)
      have hpi : p ≠ invalidId := by omega
      have hxa : x < h.predArc.length := by rw [hd.sweep.alen]; exact k2
      refine ⟨fn h.predArc x :: arcs, ?_⟩
      unfold ChHalf.chain
      simp only [hpn _ hP, hp, Option.bind_eq_bind, Option.bind_some, hpi, if_false, hd.sweep.flags.isSet k2, hP, check_true, k1,
        decide_true, rd_fn hxa, e]
  | down hP ha hA ht ih =>
    intro hc; rw [hP] at hc; cases hc

theorem Tr.start_lt (hd : PinnedDone n S O src sel k h0 P0 h P) (hsel : SelOk n O sel k) {x s d : Nat} {as : List (Bool × Nat)}
    (ht : Tr S O src h0 h P x as s d) : s < n := by
  induction ht with
  | src hP _ _ => exact hd.flag_lt hsel hP
  | up _ _ _ _ _ _ ih => exact ih
  | down _ _ _ _ ih => exact ih

theorem PinnedDone.tr_climb (hd : PinnedDone n S O src sel k h0 P0 h P) (hS : UpSide n S) (hO : UpSide n O) (hn : n ≤ invalidId)
    (hsel : SelOk n O sel k) {x s d : Nat} {as : List (Bool × Nat)} (ht : Tr S O src h0 h P x as s d) :
    ∀ fuel, x < n → n < fuel + x → ∃ u as' d', ChHalf.climb O h fuel x = some u ∧ P u = true ∧ u < n ∧ Tr S O src h0 h P u as' s d' := by
  induction ht with
  | @src x hP hp hs =>
    rintro (_ | fuel) hx hf
    · omega
    · exact ⟨x, _, _, by unfold ChHalf.climb; simp [hd.sweep.flags.isSet hx, hP], hP, hx, .src hP hp hs⟩
  | @up x p a w s d as hP hp ha hA hPp ht ih =>
    rintro (_ | fuel) hx hf
    · omega
    · exact ⟨x, _, _, by unfold ChHalf.climb; simp [hd.sweep.flags.isSet hx, hP], hP, hx, .up hP hp ha hA hPp ht⟩
  | @down x y a w s d as hP ha hA ht ih =>
    rintro (_ | fuel) hx hf
    · omega
    · obtain ⟨k1, k2, k3⟩ := hO.arc hA
      obtain ⟨u, as', d', e, r⟩ := ih fuel k2 (by omega)
      have hxa : x < h.predArc.length := by rw [hd.sweep.alen]; exact hx
      refine ⟨u, as', d', ?_, r⟩
      unfold ChHalf.climb
      simp only [hd.sweep.flags.isSet hx, hP, Option.bind_eq_bind, Option.bind_some, Bool.false_eq_true, if_false, rd_fn hxa, ha,
        show rd O.head a = some y from hA.2.1, decide_eq_true k1, check_true, gt_iff_lt, e]

theorem PinnedDone.tr_cond (hd : PinnedDone n S O src sel k h0 P0 h P) (hO : UpSide n O) {x s d : Nat} {as : List (Bool × Nat)}
    (ht : Tr S O src h0 h P x as s d) : (!P x && fn h.predArc x == invalidId) = false := by
  cases ht with
  | src hP => simp [hP]
  | up hP => simp [hP]
  | down hP ha hA ht =>
    have h1 := arc_lt' hO hA
    have h2 := hO.ok.size
    have : fn h.predArc x ≠ invalidId := by omega
    simp [this]

theorem PinnedDone.tr_used (hd : PinnedDone n S O src sel k h0 P0 h P) (hS : UpSide n S) (hO : UpSide n O) (hn : n ≤ invalidId)
    (hsel : SelOk n O sel k) {order : List Nat} (hol : order.length = n) {x s d : Nat} {as : List (Bool × Nat)}
    (hx : x < n) (ht : Tr S O src h0 h P x as s d) : ChHalf.usedSource O order h x = some (fn order s) := by
  have hxa : x < h.predArc.length := by rw [hd.sweep.alen]; exact hx
  obtain ⟨u, as', d', e1, e2, e3, e4⟩ := hd.tr_climb hS hO hn hsel ht (h.dist.length + 1) hx (by rw [hd.sweep.dlen]; omega)
  obtain ⟨arcs, e5⟩ := hd.tr_chain hS hn hsel e4 e2 (h.dist.length + 1) (by rw [hd.sweep.dlen]; omega)
  unfold ChHalf.usedSource
  have hs := Tr.start_lt hd hsel ht
  simp only [hd.sweep.flags.isSet hx, rd_fn hxa, Option.bind_eq_bind, Option.bind_some, hd.tr_cond hO ht, Bool.false_eq_true,
    if_false, e1, e5, rd_fn (show s < order.length by omega)]

/-! ### Linking along the path -/

/-- `v` is obtained by linking the weights of the arcs one after the other. -/
inductive LA (get : Bool → Nat → Option W) (link : W → W → W) : List (Bool × Nat) → W → Prop
  | one {b : Bool} {a : Nat} {w : W} (h : get b a = some w) : LA get link [(b, a)] w
  | snoc {b : Bool} {a : Nat} {w u : W} {as : List (Bool × Nat)} (hu : LA get link as u) (h : get b a = some w) :
      LA get link (as ++ [(b, a)]) (link u w)

theorem LA.ne {get : Bool → Nat → Option W} {link : W → W → W} {as : List (Bool × Nat)} {v : W} (h : LA get link as v) : as ≠ [] := by
  cases h <;> simp

theorem LA.inv {get : Bool → Nat → Option W} {link : W → W → W} {as : List (Bool × Nat)} {b : Bool} {a : Nat} {v : W}
    (h : LA get link (as ++ [(b, a)]) v) : ∃ w, get b a = some w ∧ ((as = [] ∧ v = w) ∨ ∃ u, LA get link as u ∧ v = link u w) := by
  generalize hl : as ++ [(b, a)] = l at h
  cases h with
  | @one b' a' w h =>
    have := List.append_inj' (s₂ := []) hl rfl
    obtain ⟨rfl, e⟩ := this
    cases e
    exact ⟨v, h, Or.inl ⟨rfl, rfl⟩⟩
  | @snoc b' a' w u as' hu h =>
    obtain ⟨rfl, e⟩ := List.append_inj' hl rfl
    cases e
    exact ⟨w, h, Or.inr ⟨u, hu, rfl⟩⟩

/-- The nodes of `D` have their final values. -/
structure EInv (n : Nat) (T : Nat → List (Bool × Nat) → Nat → Nat → Prop) (get : Bool → Nat → Option W) (link : W → W → W)
    (D : Nat → Bool) (e : ExtraTmp W) : Prop where
  flags : TimestampFlags.Rep e.has n D
  tlen : n ≤ e.tmp.length
  slen : e.stack.length = n
  val : ∀ y, D y = true → ∃ v, rd e.tmp y = some v ∧ ∀ as s d, T y as s d → LA get link as v

variable {T : Nat → List (Bool × Nat) → Nat → Nat → Prop} {get : Bool → Nat → Option W} {link : W → W → W} {D : Nat → Bool}
  {e : ExtraTmp W}

theorem EInv.store (hE : EInv n T get link D e) {x p a : Nat} {c : Bool} {w : W} (hx : x < n) (hp : p < n)
    (hD : D p = true ∨ ∀ as s d, T p as s d → as = []) (hg : get c a = some w)
    (hT : ∀ as s d, T x as s d → ∃ as' d', as = as' ++ [(c, a)] ∧ T p as' s d') :
    ∃ e', e.store link x p w = some e' ∧ EInv n T get link (fun j => if j = x then true else D j) e' ∧ e'.stack = e.stack := by
  obtain ⟨f, ef, hf⟩ := hE.flags.set hx
  have hxt : x < e.tmp.length := by have := hE.tlen; omega
  have key : ∀ v, (∀ as s d, T x as s d → LA get link as v) →
      EInv n T get link (fun j => if j = x then true else D j) { e with tmp := e.tmp.set x v, has := f } := by
    intro v hv
    refine ⟨hf, by simpa using hE.tlen, hE.slen, ?_⟩
    intro y hy
    by_cases hyx : y = x
    · subst hyx
      exact ⟨v, by simp [rd_set hxt], hv⟩
    · simp only [hyx, if_false] at hy
      obtain ⟨v', h1, h2⟩ := hE.val y hy
      exact ⟨v', by simp [rd_set hxt, hyx, h1], h2⟩
  unfold ExtraTmp.store
  simp only [hE.flags.isSet hp, Option.bind_eq_bind, Option.bind_some]
  cases hDp : D p with
  | true =>
    obtain ⟨u, h1, h2⟩ := hE.val p hDp
    refine ⟨_, by simp only [if_true, h1, Option.bind_some, wr_lt hxt, ef], key (link u w) ?_, rfl⟩
    intro as s d ht
    obtain ⟨as', d', rfl, ht'⟩ := hT as s d ht
    exact .snoc (h2 _ _ _ ht') hg
  | false =>
    rcases hD with hD | hD
    · rw [hDp] at hD; cases hD
    · refine ⟨_, by simp only [Bool.false_eq_true, if_false, Option.bind_some, wr_lt hxt, ef], key w ?_, rfl⟩
      intro as s d ht
      obtain ⟨as', d', rfl, ht'⟩ := hT as s d ht
      rw [hD _ _ _ ht']
      exact .one hg

/-- Popping a node with a predecessor in the upward search. -/
theorem PinnedDone.popUp (hd : PinnedDone n S O src sel k h0 P0 h P) (hS : UpSide n S) (hn : n ≤ invalidId)
    (hsel : SelOk n O sel k) (hE : EInv n (Tr S O src h0 h P) get link D e)
    {x p a w i c : Nat} (hi : rd e.stack i = some x) (hDx : D x = false) (hP : P x = true) (hp : fn h0.predNode x = p)
    (ha : fn h.predArc x = a) (hA : S.Arc a p x w) {v : W} (hv : get true a = some v)
    (hD : D p = true ∨ ∀ as s d, Tr S O src h0 h P p as s d → as = []) :
    ∃ e3, ExtraTmp.popAll h O (get true) (get false) link (i + 1) (c + 1) e = ExtraTmp.popAll h O (get true) (get false) link i c e3 ∧
      EInv n (Tr S O src h0 h P) get link (fun j => if j = x then true else D j) e3 ∧ e3.stack = e.stack := by
  obtain ⟨T, hI⟩ := hd.search
  obtain ⟨k1, k2, k3⟩ := hS.arc hA
  have hpi : p ≠ invalidId := by omega
  have hxa : x < h.predArc.length := by rw [hd.sweep.alen]; exact k2
  have hpn : rd h.predNode x = some p := by
    rw [← hp, hd.sweep.plen]; exact rd_fn (by rw [hI.plen]; exact k2)
  obtain ⟨e3, e4, e5, e6⟩ := hE.store (link := link) (x := x) (p := p) (a := a) (c := true) (w := v) k2 (by omega) hD hv (by
    intro as s d ht
    cases ht with
    | src _ hp' _ => rw [hp] at hp'; exact absurd hp' hpi
    | up _ hp' ha' _ _ ht' =>
      rw [hp] at hp'; rw [ha] at ha'
      subst hp'; subst ha'
      exact ⟨_, _, rfl, ht'⟩
    | down hP' => rw [hP] at hP'; cases hP')
  refine ⟨e3, ?_, e5, e6⟩
  have hstep : ExtraTmp.forwardStep h (get true) link e x = some e3 := by
    unfold ExtraTmp.forwardStep
    simp only [hE.flags.isSet k2, hDx, hd.sweep.flags.isSet k2, hP, hpn, Option.bind_eq_bind, Option.bind_some, Bool.not_false,
      check_true, ne_eq, hpi, not_false_eq_true, decide_true, rd_fn hxa, ha, hv, e4]
  rw [ExtraTmp.popAll]
  simp only [hi, Option.bind_eq_bind, Option.bind_some, ne_eq, Nat.succ_ne_zero, not_false_eq_true, if_true, hstep,
    Nat.add_sub_cancel]

/-- Popping a node with a predecessor in the sweep. -/
theorem PinnedDone.popDown (hd : PinnedDone n S O src sel k h0 P0 h P) (hO : UpSide n O)
    (hE : EInv n (Tr S O src h0 h P) get link D e)
    {x y a w i : Nat} (hi : rd e.stack i = some x) (hDx : D x = false) (hP : P x = false)
    (ha : fn h.predArc x = a) (hA : O.Arc a x y w) {v : W} (hv : get false a = some v)
    (hD : D y = true ∨ ∀ as s d, Tr S O src h0 h P y as s d → as = []) :
    ∃ e3, ExtraTmp.popAll h O (get true) (get false) link (i + 1) 0 e = ExtraTmp.popAll h O (get true) (get false) link i 0 e3 ∧
      EInv n (Tr S O src h0 h P) get link (fun j => if j = x then true else D j) e3 ∧ e3.stack = e.stack := by
  obtain ⟨k1, k2, k3⟩ := hO.arc hA
  have k2' : x < n := by omega
  have hxa : x < h.predArc.length := by rw [hd.sweep.alen]; exact k2'
  obtain ⟨e3, e4, e5, e6⟩ := hE.store (link := link) (x := x) (p := y) (a := a) (c := false) (w := v) k2' k2 hD hv (by
    intro as s d ht
    cases ht with
    | src hP' => rw [hP] at hP'; cases hP'
    | up hP' => rw [hP] at hP'; cases hP'
    | down _ ha' hA' ht' =>
      rw [ha] at ha'
      subst ha'
      have : some y = some _ := hA.2.1.symm.trans hA'.2.1
      cases this
      exact ⟨_, _, rfl, ht'⟩)
  refine ⟨e3, ?_, e5, e6⟩
  have hstep : ExtraTmp.backwardStep h O (get false) link e x = some e3 := by
    unfold ExtraTmp.backwardStep
    simp only [hE.flags.isSet k2', hDx, hd.sweep.flags.isSet k2', hP, Option.bind_eq_bind, Option.bind_some, Bool.not_false,
      check_true, rd_fn hxa, ha, show rd O.head a = some y from hA.2.1, hv, e4]
  rw [ExtraTmp.popAll]
  simp only [hi, Option.bind_eq_bind, Option.bind_some, ne_eq, not_true_eq_false, if_false, hstep]

theorem EInv.push (hE : EInv n T get link D e) {L : List Nat} (hL : L.Nodup) (hlt : ∀ y ∈ L, y < n) {x : Nat} (hx : x < n)
    (hxL : x ∉ L) : ∃ e1, e.push L.length x = some e1 ∧ EInv n T get link D e1 ∧ fn e1.stack L.length = x ∧
      ∀ i, i < L.length → fn e1.stack i = fn e.stack i := by
  have h1 := nodup_length_le (n := n) (L := x :: L) (List.nodup_cons.2 ⟨hxL, hL⟩) (by
    intro y hy
    rcases List.mem_cons.1 hy with rfl | hy
    · exact hx
    · exact hlt y hy)
  simp only [List.length_cons] at h1
  have hk : L.length < e.stack.length := by rw [hE.slen]; omega
  refine ⟨{ e with stack := e.stack.set L.length x }, by simp [ExtraTmp.push, wr_lt hk],
    ⟨hE.flags, hE.tlen, by simp [hE.slen], hE.val⟩, by simp [fn_set hk], ?_⟩
  intro i hi
  simp only [fn_set hk]
  rw [if_neg (by omega)]

theorem PinnedDone.pushUp_spec (hd : PinnedDone n S O src sel k h0 P0 h P) (hS : UpSide n S) (hn : n ≤ invalidId)
    (hsel : SelOk n O sel k) (hget : ∀ a x y w, S.Arc a x y w → ∃ v, get true a = some v) (dflt : W)
    {x s d : Nat} {as : List (Bool × Nat)} (ht : Tr S O src h0 h P x as s d) :
    P x = true → ∀ fuel c (e : ExtraTmp W) D (L : List Nat), x < fuel → D x = false → EInv n (Tr S O src h0 h P) get link D e →
    L.Nodup → (∀ y ∈ L, y < n ∧ (P y = false ∨ x < y)) →
    ∃ e1 k1 c1 e2 D2, ExtraTmp.pushUp dflt h fuel e L.length c x = some (e1, k1, c1) ∧
      ExtraTmp.popAll h O (get true) (get false) link k1 c1 e1 = ExtraTmp.popAll h O (get true) (get false) link L.length c e2 ∧
      EInv n (Tr S O src h0 h P) get link D2 e2 ∧ (∀ i, i < L.length → fn e2.stack i = fn e.stack i) ∧
      (∀ y, D2 y = true → D y = true ∨ (P y = true ∧ y ≤ x)) ∧
      (D2 x = true ∨ ((∀ as s d, Tr S O src h0 h P x as s d → as = []) ∧ rd e2.tmp x = some dflt)) := by
  obtain ⟨T, hI⟩ := hd.search
  have hpn : ∀ x, P x = true → rd h.predNode x = some (fn h0.predNode x) := by
    intro x hx
    rw [hd.sweep.plen]; exact rd_fn (by rw [hI.plen]; exact hd.flag_lt hsel hx)
  induction ht with
  | @src x hP hp hs =>
    rintro - (_ | fuel) c e D L hf hDx hE hL hLx
    · omega
    have hxt : x < e.tmp.length := by have := hd.flag_lt hsel hP; have := hE.tlen; omega
    refine ⟨_, _, _, { e with tmp := e.tmp.set x dflt }, D, ?_, rfl, ⟨hE.flags, by simpa using hE.tlen, hE.slen, ?_⟩, fun _ _ => rfl,
      fun y hy => Or.inl hy, Or.inr ⟨?_, by simp [rd_set hxt]⟩⟩
    · unfold ExtraTmp.pushUp
      simp only [hpn _ hP, hp, Option.bind_eq_bind, Option.bind_some, if_true, wr_lt hxt]
    · intro y hy
      obtain ⟨v, h1, h2⟩ := hE.val y hy
      have : y ≠ x := by rintro rfl; rw [hDx] at hy; cases hy
      exact ⟨v, by simp [rd_set hxt, this, h1], h2⟩
    · intro as s d ht
      cases ht with
      | src => rfl
      | up _ hp' _ hA =>
        rw [hp] at hp'
        have := (hS.arc hA).1
        have := (hS.arc hA).2.1
        omega
      | down hP' => rw [hP] at hP'; cases hP'
  | @up x p a w s d as hP hp ha hA hPp ht ih =>
    rintro - (_ | fuel) c e D L hf hDx hE hL hLx
    · omega
    obtain ⟨k1, k2, k3⟩ := hS.arc hA
    obtain ⟨v, hv⟩ := hget _ _ _ _ hA
    have hpi : p ≠ invalidId := by omega
    have hxL : x ∉ L := by
      intro hc
      rcases (hLx x hc).2 with h1 | h1
      · rw [hP] at h1; cases h1
      · omega
    obtain ⟨e1, p1, p2, p3, p4⟩ := hE.push hL (fun y hy => (hLx y hy).1) k2 hxL
    have hrd : ∀ e' : ExtraTmp W, e'.stack.length = n → fn e'.stack L.length = x → rd e'.stack L.length = some x := by
      intro e' hl hfx
      have h1 := nodup_length_le (n := n) (L := x :: L) (List.nodup_cons.2 ⟨hxL, hL⟩) (by
        intro y hy
        rcases List.mem_cons.1 hy with rfl | hy
        · exact k2
        · exact (hLx y hy).1)
      simp only [List.length_cons] at h1
      rw [rd_fn (by omega), hfx]
    cases hDp : D p with
    | true =>
      obtain ⟨e3, q1, q2, q3⟩ := hd.popUp hS hn hsel p2 (c := c) (hrd e1 p2.slen p3) hDx hP hp ha hA hv (Or.inl hDp)
      refine ⟨e1, L.length + 1, c + 1, e3, _, ?_, q1, q2, by rw [q3]; exact p4, ?_, Or.inl (by simp)⟩
      · unfold ExtraTmp.pushUp
        simp only [hpn _ hP, hp, Option.bind_eq_bind, Option.bind_some, hpi, if_false, hd.sweep.flags.isSet k2, hP, check_true, p1, k1,
          decide_true, p2.flags.isSet (show p < n by omega), hDp, if_true]
      · intro y hy
        by_cases hyx : y = x
        · subst hyx; exact Or.inr ⟨hP, Nat.le_refl _⟩
        · simp only [hyx, if_false] at hy; exact Or.inl hy
    | false =>
      obtain ⟨e1', k1', c1', e2, D2, r1, r2, r3, r4, r5, r6⟩ := ih hPp fuel (c + 1) e1 D (x :: L) (by omega) hDp p2
        (List.nodup_cons.2 ⟨hxL, hL⟩) (by
          intro y hy
          rcases List.mem_cons.1 hy with rfl | hy
          · exact ⟨k2, Or.inr k1⟩
          · obtain ⟨h1, h2⟩ := hLx y hy
            exact ⟨h1, h2.imp id (fun h => by omega)⟩)
      rw [List.length_cons] at r1 r2 r4
      have hD2x : D2 x = false := by
        cases hc : D2 x with
        | false => rfl
        | true =>
          rcases r5 x hc with h1 | h1
          · rw [hDx] at h1; cases h1
          · omega
      obtain ⟨e3, q1, q2, q3⟩ := hd.popUp hS hn hsel r3 (c := c) (hrd e2 r3.slen (by rw [r4 _ (by omega), p3])) hD2x hP hp ha hA hv
        (r6.imp id (fun h => h.1))
      refine ⟨e1', k1', c1', e3, _, ?_, r2.trans q1, q2, ?_, ?_, Or.inl (by simp)⟩
      · unfold ExtraTmp.pushUp
        simp only [hpn _ hP, hp, Option.bind_eq_bind, Option.bind_some, hpi, if_false, hd.sweep.flags.isSet k2, hP, check_true, p1, k1,
          decide_true, p2.flags.isSet (show p < n by omega), hDp, Bool.false_eq_true, r1]
      · intro i hi
        rw [q3, r4 i (by omega), p4 i hi]
      · intro y hy
        by_cases hyx : y = x
        · subst hyx; exact Or.inr ⟨hP, Nat.le_refl _⟩
        · simp only [hyx, if_false] at hy
          exact (r5 y hy).imp id (fun h => ⟨h.1, by omega⟩)
  | down hP ha hA ht ih =>
    intro hc; rw [hP] at hc; cases hc

theorem PinnedDone.pushDown_spec (hd : PinnedDone n S O src sel k h0 P0 h P) (hS : UpSide n S) (hO : UpSide n O) (hn : n ≤ invalidId)
    (hsel : SelOk n O sel k) (hgetU : ∀ a x y w, S.Arc a x y w → ∃ v, get true a = some v)
    (hgetD : ∀ a x y w, O.Arc a x y w → ∃ v, get false a = some v) (dflt : W)
    {x s d : Nat} {as : List (Bool × Nat)} (ht : Tr S O src h0 h P x as s d) :
    x < n → ∀ fuel (e : ExtraTmp W) D (L : List Nat), n < fuel + x → D x = false → EInv n (Tr S O src h0 h P) get link D e →
    L.Nodup → (∀ y ∈ L, P y = false ∧ y < x) →
    ∃ e1 k1 c1 e2 D2, ExtraTmp.pushDown dflt h O fuel e L.length x = some (e1, k1, c1) ∧
      ExtraTmp.popAll h O (get true) (get false) link k1 c1 e1 = ExtraTmp.popAll h O (get true) (get false) link L.length 0 e2 ∧
      EInv n (Tr S O src h0 h P) get link D2 e2 ∧ (∀ i, i < L.length → fn e2.stack i = fn e.stack i) ∧
      (∀ y, D2 y = true → D y = true ∨ P y = true ∨ x ≤ y) ∧
      (D2 x = true ∨ ((∀ as s d, Tr S O src h0 h P x as s d → as = []) ∧ rd e2.tmp x = some dflt)) := by
  have up : ∀ {x s d : Nat} {as : List (Bool × Nat)}, Tr S O src h0 h P x as s d → P x = true → 
      x < n → ∀ fuel (e : ExtraTmp W) D (L : List Nat), n < fuel + x → D x = false → EInv n (Tr S O src h0 h P) get link D e →
      L.Nodup → (∀ y ∈ L, P y = false ∧ y < x) →
      ∃ e1 k1 c1 e2 D2, ExtraTmp.pushDown dflt h O fuel e L.length x = some (e1, k1, c1) ∧
        ExtraTmp.popAll h O (get true) (get false) link k1 c1 e1 = ExtraTmp.popAll h O (get true) (get false) link L.length 0 e2 ∧
        EInv n (Tr S O src h0 h P) get link D2 e2 ∧ (∀ i, i < L.length → fn e2.stack i = fn e.stack i) ∧
        (∀ y, D2 y = true → D y = true ∨ P y = true ∨ x ≤ y) ∧
        (D2 x = true ∨ ((∀ as s d, Tr S O src h0 h P x as s d → as = []) ∧ rd e2.tmp x = some dflt)) := by
    intro x s d as ht hP hx fuel e D L hf hDx hE hL hLx
    obtain ⟨fuel, rfl⟩ : ∃ f, fuel = f + 1 := ⟨fuel - 1, by omega⟩
    obtain ⟨e1, k1, c1, e2, D2, r1, r2, r3, r4, r5, r6⟩ := hd.pushUp_spec hS hn hsel hgetU (link := link) dflt ht hP (h.dist.length + 1) 0 e D L
      (by rw [hd.sweep.dlen]; omega) hDx hE hL (fun y hy => ⟨by have := (hLx y hy).2; omega, Or.inl (hLx y hy).1⟩)
    refine ⟨e1, k1, c1, e2, D2, ?_, r2, r3, r4, fun y hy => (r5 y hy).imp id (fun h => Or.inl h.1), r6⟩
    unfold ExtraTmp.pushDown
    simp only [hd.sweep.flags.isSet hx, hP, Option.bind_eq_bind, Option.bind_some, if_true, r1]
  induction ht with
  | src hP hp hs => exact up (.src hP hp hs) hP
  | up hP hp ha hA hPp ht => exact up (.up hP hp ha hA hPp ht) hP
  | @down x p a w s d as hP ha hA ht ih =>
    rintro hx (_ | fuel) e D L hf hDx hE hL hLx
    · omega
    obtain ⟨k1, k2, k3⟩ := hO.arc hA
    obtain ⟨v, hv⟩ := hgetD _ _ _ _ hA
    have hxa : x < h.predArc.length := by rw [hd.sweep.alen]; exact hx
    have hxL : x ∉ L := fun hc => by have := (hLx x hc).2; omega
    have hLn : ∀ y ∈ L, y < n := fun y hy => by have := (hLx y hy).2; omega
    obtain ⟨e1, p1, p2, p3, p4⟩ := hE.push hL hLn hx hxL
    have hrd : ∀ e' : ExtraTmp W, e'.stack.length = n → fn e'.stack L.length = x → rd e'.stack L.length = some x := by
      intro e' hl hfx
      have h1 := nodup_length_le (n := n) (L := x :: L) (List.nodup_cons.2 ⟨hxL, hL⟩) (by
        intro y hy
        rcases List.mem_cons.1 hy with rfl | hy
        · exact hx
        · exact hLn y hy)
      simp only [List.length_cons] at h1
      rw [rd_fn (by omega), hfx]
    cases hDp : D p with
    | true =>
      obtain ⟨e3, q1, q2, q3⟩ := hd.popDown hO p2 (hrd e1 p2.slen p3) hDx hP ha hA hv (Or.inl hDp)
      refine ⟨e1, L.length + 1, 0, e3, _, ?_, q1, q2, by rw [q3]; exact p4, ?_, Or.inl (by simp)⟩
      · unfold ExtraTmp.pushDown
        simp only [hd.sweep.flags.isSet hx, hP, Option.bind_eq_bind, Option.bind_some, Bool.false_eq_true, if_false, p1, rd_fn hxa, ha,
          show rd O.head a = some p from hA.2.1, gt_iff_lt, k1, decide_true, check_true, p2.flags.isSet k2, hDp, if_true]
      · intro y hy
        by_cases hyx : y = x
        · subst hyx; exact Or.inr (Or.inr (Nat.le_refl _))
        · simp only [hyx, if_false] at hy; exact Or.inl hy
    | false =>
      obtain ⟨e1', k1', c1', e2, D2, r1, r2, r3, r4, r5, r6⟩ := ih k2 fuel e1 D (x :: L) (by omega) hDp p2
        (List.nodup_cons.2 ⟨hxL, hL⟩) (by
          intro y hy
          rcases List.mem_cons.1 hy with rfl | hy
          · exact ⟨hP, k1⟩
          · obtain ⟨h1, h2⟩ := hLx y hy
            exact ⟨h1, by omega⟩)
      rw [List.length_cons] at r1 r2 r4
      have hD2x : D2 x = false := by
        cases hc : D2 x with
        | false => rfl
        | true =>
          rcases r5 x hc with h1 | h1 | h1
          · rw [hDx] at h1; cases h1
          · rw [hP] at h1; cases h1
          · omega
      obtain ⟨e3, q1, q2, q3⟩ := hd.popDown hO r3 (hrd e2 r3.slen (by rw [r4 _ (by omega), p3])) hD2x hP ha hA hv
        (r6.imp id (fun h => h.1))
      refine ⟨e1', k1', c1', e3, _, ?_, r2.trans q1, q2, ?_, ?_, Or.inl (by simp)⟩
      · unfold ExtraTmp.pushDown
        simp only [hd.sweep.flags.isSet hx, hP, Option.bind_eq_bind, Option.bind_some, Bool.false_eq_true, if_false, p1, rd_fn hxa, ha,
          show rd O.head a = some p from hA.2.1, gt_iff_lt, k1, decide_true, check_true, p2.flags.isSet k2, hDp, r1]
      · intro i hi
        rw [q3, r4 i (by omega), p4 i hi]
      · intro y hy
        by_cases hyx : y = x
        · subst hyx; exact Or.inr (Or.inr (Nat.le_refl _))
        · simp only [hyx, if_false] at hy
          rcases r5 y hy with h | h | h
          · exact Or.inl h
          · exact Or.inr (Or.inl h)
          · exact Or.inr (Or.inr (by omega))

theorem PinnedDone.expand_spec (hd : PinnedDone n S O src sel k h0 P0 h P) (hS : UpSide n S) (hO : UpSide n O) (hn : n ≤ invalidId)
    (hsel : SelOk n O sel k) (hgetU : ∀ a x y w, S.Arc a x y w → ∃ v, get true a = some v)
    (hgetD : ∀ a x y w, O.Arc a x y w → ∃ v, get false a = some v) (dflt : W)
    {x s d : Nat} {as : List (Bool × Nat)} (ht : Tr S O src h0 h P x as s d) (hx : x < n)
    (hE : EInv n (Tr S O src h0 h P) get link D e) :
    ∃ e' D' v, e.expand dflt h O (get true) (get false) link x = some e' ∧ EInv n (Tr S O src h0 h P) get link D' e' ∧
      rd e'.tmp x = some v ∧ ((as = [] ∧ v = dflt) ∨ LA get link as v) := by
  unfold ExtraTmp.expand
  simp only [hE.flags.isSet hx, Option.bind_eq_bind, Option.bind_some]
  cases hDx : D x with
  | true =>
    obtain ⟨v, h1, h2⟩ := hE.val x hDx
    exact ⟨e, D, v, rfl, hE, h1, Or.inr (h2 _ _ _ ht)⟩
  | false =>
    obtain ⟨e1, k1, c1, e2, D2, r1, r2, r3, r4, r5, r6⟩ := hd.pushDown_spec hS hO hn hsel hgetU hgetD (link := link) dflt ht hx
      (h.dist.length + 1) e D [] (by rw [hd.sweep.dlen]; omega) hDx hE List.nodup_nil (by simp)
    rw [List.length_nil] at r1 r2
    have he : ExtraTmp.popAll h O (get true) (get false) link k1 c1 e1 = some e2 := r2
    simp only [Bool.false_eq_true, if_false, r1, Option.bind_some, he]
    rcases r6 with r6 | ⟨r6, r7⟩
    · obtain ⟨v, h1, h2⟩ := r3.val x r6
      exact ⟨e2, D2, v, rfl, r3, h1, Or.inr (h2 _ _ _ ht)⟩
    · exact ⟨e2, D2, dflt, rfl, r3, r7, Or.inl ⟨r6 _ _ _ ht, rfl⟩⟩

/-- What is reported for the selected node `r`. -/
def ExtraAt (S O : ChSide) (src : List (Nat × Nat)) (h0 h : ChHalf) (P : Nat → Bool) (get : Bool → Nat → Option W) (link : W → W → W)
    (dflt : W) (r : Nat) (v : W) : Prop :=
  (fn h.dist r = infWeight ∧ v = dflt) ∨
  (fn h.dist r < infWeight ∧ ∃ as s, Tr S O src h0 h P r as s (fn h.dist r) ∧ ((as = [] ∧ v = dflt) ∨ LA get link as v))

theorem PinnedDone.extract_spec (hd : PinnedDone n S O src sel k h0 P0 h P) (hS : UpSide n S) (hO : UpSide n O) (hn : n ≤ invalidId)
    (hH : HierB n (fun x => x) S.R O.R infWeight) (hsel : SelOk n O sel k)
    (hgetU : ∀ a x y w, S.Arc a x y w → ∃ v, get true a = some v)
    (hgetD : ∀ a x y w, O.Arc a x y w → ∃ v, get false a = some v) (dflt : W) {pin : ChHalf} (hpin : HalfOk n pin) {count : Nat}
    (hlist : ∀ i, i < count → ∃ j, j < k ∧ rd pin.predNode i = some (fn sel j)) {tmp out : List W} (htmp : n ≤ tmp.length)
    (hout : count ≤ out.length) :
    ∃ pin' tmp' out', ExtraTmp.extract dflt h pin count O (get true) (get false) link tmp out = some (pin', tmp', out') ∧
      HalfOk n pin' ∧ pin'.dist = pin.dist ∧ pin'.predNode = pin.predNode ∧ out'.length = out.length ∧
      (∀ i, count ≤ i → rd out' i = rd out i) ∧
      ∀ i, i < count → ∃ r v, rd pin.predNode i = some r ∧ rd out' i = some v ∧ ExtraAt S O src h0 h P get link dflt r v := by
  obtain ⟨PP, hPP⟩ := hpin.flags
  obtain ⟨⟨e, out'⟩, er, ⟨D, hE⟩, hl, hrest, hval⟩ := forRange_inv (lo := 0) (hi := count)
    (s := ((⟨tmp, pin.pushed.resetAll, pin.predArc⟩ : ExtraTmp W), out))
    (f := ExtraTmp.target dflt h O (get true) (get false) link pin.predNode)
    (fun i s => (∃ D, EInv n (Tr S O src h0 h P) get link D s.1) ∧ s.2.length = out.length ∧ (∀ j, count ≤ j → rd s.2 j = rd out j) ∧
      ∀ j, j < i → ∃ r v, rd pin.predNode j = some r ∧ rd s.2 j = some v ∧ ExtraAt S O src h0 h P get link dflt r v)
    (Nat.zero_le _)
    ⟨⟨fun _ => false, hPP.resetAll, htmp, hpin.alen, fun y hy => by cases hy⟩, rfl, fun _ _ => rfl, fun j hj => absurd hj (Nat.not_lt_zero j)⟩
    (by
      rintro i ⟨e, out1⟩ _ hi ⟨⟨D, hE⟩, hl, hrest, hval⟩
      dsimp only at hE hl hrest hval
      obtain ⟨j, hj, hr⟩ := hlist i hi
      have hxn := hsel.lt j hj
      have hxa : fn sel j < h.predArc.length := by rw [hd.sweep.alen]; exact hxn
      have hio : i < out1.length := by omega
      have hxi : fn sel j ≠ invalidId := by omega
      have upd : ∀ (e' : ExtraTmp W) (D' : Nat → Bool) (v : W), EInv n (Tr S O src h0 h P) get link D' e' →
          ExtraAt S O src h0 h P get link dflt (fn sel j) v →
          (∃ D, EInv n (Tr S O src h0 h P) get link D e') ∧ (out1.set i v).length = out.length ∧
          (∀ j, count ≤ j → rd (out1.set i v) j = rd out j) ∧
          ∀ j, j < i + 1 → ∃ r v', rd pin.predNode j = some r ∧ rd (out1.set i v) j = some v' ∧
            ExtraAt S O src h0 h P get link dflt r v' := by
        intro e' D' v hE' hv
        refine ⟨⟨D', hE'⟩, by simp [hl], ?_, ?_⟩
        · intro j' hj'
          rw [rd_set hio, if_neg (by omega)]; exact hrest j' hj'
        · intro j' hj'
          by_cases hji : j' = i
          · subst hji
            exact ⟨_, v, hr, by simp [rd_set hio], hv⟩
          · rw [rd_set hio, if_neg hji]; exact hval j' (by omega)
      unfold ExtraTmp.target
      simp only [hr, Option.bind_eq_bind, Option.bind_some, ne_eq, hxi, not_false_eq_true, decide_true, check_true,
        hd.sweep.flags.isSet hxn, rd_fn hxa]
      by_cases hlt : fn h.dist (fn sel j) < infWeight
      · obtain ⟨as, s, hT⟩ := hd.tr_sel hS hO hn hH hsel (n + 1) j hj (by omega) hlt
        obtain ⟨e', D', v, r1, r2, r3, r4⟩ := hd.expand_spec hS hO hn hsel hgetU hgetD (link := link) dflt hT hxn hE
        refine ⟨(e', out1.set i v), ?_, upd e' D' v r2 (Or.inr ⟨hlt, as, s, hT, r4⟩)⟩
        simp only [hd.tr_cond hO hT, Bool.false_eq_true, if_false, r1, Option.bind_some, r3, wr_lt hio]
      · have hle := (hd.sweep.swept j hj).le_inf
        have hinf : fn h.dist (fn sel j) = infWeight := by omega
        refine ⟨(e, out1.set i dflt), ?_, upd e D dflt hE (Or.inl ⟨hinf, rfl⟩)⟩
        cases hd.sweep.swept j hj with
        | up _ _ h1 h2 _ => omega
        | down _ _ _ _ _ _ _ h1 _ _ => omega
        | inf hP hP0 hd' ha hm => simp [hP, ha, wr_lt hio])
  refine ⟨{ pin with pushed := e.has, predArc := e.stack }, e.tmp, out', ?_, ?_, rfl, rfl, hl, hrest, hval⟩
  · unfold ExtraTmp.extract
    simp only [er, Option.bind_eq_bind, Option.bind_some]
  · exact ⟨⟨D, hE.flags⟩, hpin.queue, hpin.dlen, hpin.plen, hE.slen⟩

end

/-! ### Answers -/

section
variable {G : QGraph} {ch : Ch} {weight : List W} {link : W → W → W} {get : Bool → Nat → Option W}

theorem tr_targets (hg : GoodGet ch G.arcs weight link get) {src : List (Nat × Nat)} {h0 h : ChHalf} {P : Nat → Bool} {x s d : Nat}
    {as : List (Bool × Nat)} (ht : Tr ch.forward ch.backward src h0 h P x as s d) :
    ∃ ds l p, (s, ds) ∈ src ∧ PWalk G.arcs (fn ch.order s) p (fn ch.order x) l ∧ d = ds + l ∧ (as = [] → p = []) ∧
      ∀ v, LA get link as v → PLinked weight link p v := by
  induction ht with
  | src hP hp hs => exact ⟨_, 0, [], hs, .nil _, rfl, fun _ => rfl, fun v hv => absurd rfl hv.ne⟩
  | up hP hp ha hA hPp ht ih =>
    obtain ⟨ds, l, p, h1, h2, h3, h4, h5⟩ := ih
    obtain ⟨l', w', g1, g2, g3, g4⟩ := hg.1 _ _ _ _ hA
    refine ⟨ds, _, p ++ l', h1, h2.append g2, by omega, by simp, ?_⟩
    intro v hv
    obtain ⟨w, e1, e2⟩ := hv.inv
    rw [g3] at e1; cases e1
    rcases e2 with ⟨rfl, rfl⟩ | ⟨u, e2, rfl⟩
    · rw [h4 rfl]; exact g4
    · exact (h5 u e2).join g4
  | down hP ha hA ht ih =>
    obtain ⟨ds, l, p, h1, h2, h3, h4, h5⟩ := ih
    obtain ⟨l', w', g1, g2, g3, g4⟩ := hg.2 _ _ _ _ hA
    refine ⟨ds, _, p ++ l', h1, h2.append g2, by omega, by simp, ?_⟩
    intro v hv
    obtain ⟨w, e1, e2⟩ := hv.inv
    rw [g3] at e1; cases e1
    rcases e2 with ⟨rfl, rfl⟩ | ⟨u, e2, rfl⟩
    · rw [h4 rfl]; exact g4
    · exact (h5 u e2).join g4

theorem tr_sources (hg : GoodGet ch G.arcs weight link get) {src : List (Nat × Nat)} {h0 h : ChHalf} {P : Nat → Bool} {x s d : Nat}
    {as : List (Bool × Nat)} (ht : Tr ch.backward ch.forward src h0 h P x as s d) :
    ∃ ds l p, (s, ds) ∈ src ∧ PWalk G.arcs (fn ch.order x) p (fn ch.order s) l ∧ d = ds + l ∧ (as = [] → p = []) ∧
      ∀ v, LA (fun b => get (!b)) (inverseLink link) as v → PLinked weight link p v := by
  induction ht with
  | src hP hp hs => exact ⟨_, 0, [], hs, .nil _, rfl, fun _ => rfl, fun v hv => absurd rfl hv.ne⟩
  | up hP hp ha hA hPp ht ih =>
    obtain ⟨ds, l, p, h1, h2, h3, h4, h5⟩ := ih
    obtain ⟨l', w', g1, g2, g3, g4⟩ := hg.2 _ _ _ _ hA
    refine ⟨ds, _, l' ++ p, h1, g2.append h2, by omega, by simp, ?_⟩
    intro v hv
    obtain ⟨w, e1, e2⟩ := hv.inv
    simp only [Bool.not_true, g3] at e1; cases e1
    rcases e2 with ⟨rfl, rfl⟩ | ⟨u, e2, rfl⟩
    · rw [h4 rfl, List.append_nil]; exact g4
    · exact g4.join (h5 u e2)
  | down hP ha hA ht ih =>
    obtain ⟨ds, l, p, h1, h2, h3, h4, h5⟩ := ih
    obtain ⟨l', w', g1, g2, g3, g4⟩ := hg.1 _ _ _ _ hA
    refine ⟨ds, _, l' ++ p, h1, g2.append h2, by omega, by simp, ?_⟩
    intro v hv
    obtain ⟨w, e1, e2⟩ := hv.inv
    simp only [Bool.not_false, g3] at e1; cases e1
    rcases e2 with ⟨rfl, rfl⟩ | ⟨u, e2, rfl⟩
    · rw [h4 rfl, List.append_nil]; exact g4
    · exact g4.join (h5 u e2)

/-- The extra weight of a pinned target fits its distance and used source. -/
theorem extraTo_target (hk : HierOk ch G) (hg : GoodGet ch G.arcs weight link get) {srcs : List (Nat × Nat)}
    (hsrc : ∀ p ∈ srcs, p.1 < G.n) {sel : List Nat} {k : Nat} (hsel : SelOk G.n ch.backward sel k) {h0 h : ChHalf} {P0 P : Nat → Bool}
    (hd : PinnedDone G.n ch.forward ch.backward (ranked ch.rank srcs) sel k h0 P0 h P) {t r d u : Nat} (ht : t < G.n)
    (hrt : rd ch.rank t = some r) (hr : r < G.n) (hdist : rd h.dist r = some d)
    (hu : ChHalf.usedSource ch.backward ch.order h r = some u) {dflt v : W}
    (hv : ExtraAt ch.forward ch.backward (ranked ch.rank srcs) h0 h P get link dflt r v) :
    ExtraToTarget G.arcs weight link dflt srcs t d u v := by
  have hfr : fn ch.rank t = r := fn_of_rd hrt
  have hdr : fn h.dist r = d := fn_of_rd hdist
  rcases hv with ⟨h1, h2⟩ | ⟨h1, as, s, hT, h2⟩
  · exact Or.inr ⟨hdr.symm.trans h1, h2⟩
  · obtain ⟨ds, l, p, g1, g2, g3, g4, g5⟩ := tr_targets hg hT
    rw [hd.tr_used hk.q.f hk.q.b hk.q.n_le hsel hk.ok.orderLen hr hT] at hu
    cases hu
    obtain ⟨x, hx, rfl⟩ := mem_ranked.1 g1
    have hox := hk.order_fn (hsrc _ hx)
    rw [hox, ← hfr, hk.order_fn ht] at g2
    rw [hox]
    refine Or.inl ⟨by rw [unreachable_eq]; omega, p.map Prod.fst, ⟨ds, 0, l, hx, by simp, g2.walk, by omega⟩, ?_⟩
    rcases h2 with ⟨rfl, rfl⟩ | h2
    · rw [g4 rfl]; exact Or.inl ⟨rfl, rfl⟩
    · exact (g5 v h2).extraOf dflt

/-- The extra weight of a pinned source fits its distance and used target. -/
theorem extraTo_source (hk : HierOk ch G) (hg : GoodGet ch G.arcs weight link get) {tgts : List (Nat × Nat)}
    (htgt : ∀ p ∈ tgts, p.1 < G.n) {sel : List Nat} {k : Nat} (hsel : SelOk G.n ch.forward sel k) {h0 h : ChHalf} {P0 P : Nat → Bool}
    (hd : PinnedDone G.n ch.backward ch.forward (ranked ch.rank tgts) sel k h0 P0 h P) {t r d u : Nat} (ht : t < G.n)
    (hrt : rd ch.rank t = some r) (hr : r < G.n) (hdist : rd h.dist r = some d)
    (hu : ChHalf.usedSource ch.forward ch.order h r = some u) {dflt v : W}
    (hv : ExtraAt ch.backward ch.forward (ranked ch.rank tgts) h0 h P (fun b => get (!b)) (inverseLink link) dflt r v) :
    ExtraToSource G.arcs weight link dflt tgts t d u v := by
  have hfr : fn ch.rank t = r := fn_of_rd hrt
  have hdr : fn h.dist r = d := fn_of_rd hdist
  rcases hv with ⟨h1, h2⟩ | ⟨h1, as, s, hT, h2⟩
  · exact Or.inr ⟨hdr.symm.trans h1, h2⟩
  · obtain ⟨ds, l, p, g1, g2, g3, g4, g5⟩ := tr_sources hg hT
    rw [hd.tr_used hk.q.b hk.q.f hk.q.n_le hsel hk.ok.orderLen hr hT] at hu
    cases hu
    obtain ⟨x, hx, rfl⟩ := mem_ranked.1 g1
    have hox := hk.order_fn (htgt _ hx)
    rw [hox, ← hfr, hk.order_fn ht] at g2
    rw [hox]
    refine Or.inl ⟨by rw [unreachable_eq]; omega, p.map Prod.fst, ⟨0, ds, l, by simp, hx, g2.walk, by omega⟩, ?_⟩
    rcases h2 with ⟨rfl, rfl⟩ | h2
    · rw [g4 rfl]; exact Or.inl ⟨rfl, rfl⟩
    · exact (g5 v h2).extraOf dflt

end
end RK
