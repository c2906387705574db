import Verif.Proof.Cut
import Verif.Spec.Inertial
/-! # Inertial flow (nested_dissection.cpp:442-609) -/
namespace RK
open Spec Nd BitVector

theorem markRange_spec {n lo hi : Nat} {v : List Nat} (hnd : v.Nodup) (hlt : ∀ x ∈ v, x < n) (hlh : lo ≤ hi)
    (hhi : hi ≤ v.length) :
    ∃ b, (forRange lo hi (List.replicate n false) fun src i => do
        let x ← rd v i
        wr src x true) = some b ∧ b.length = n ∧ b.count true = hi - lo ∧
      ∀ x, at' b x = true ↔ ∃ i, lo ≤ i ∧ i < hi ∧ rd v i = some x := by
  obtain ⟨b, e, h⟩ := forRange_inv (lo := lo) (hi := hi) (s := List.replicate n false)
    (f := fun src i => do
      let x ← rd v i
      wr src x true)
    (fun j b => b.length = n ∧ b.count true = j - lo ∧ ∀ x, at' b x = true ↔ ∃ i, lo ≤ i ∧ i < j ∧ rd v i = some x) hlh
    (by
      refine ⟨by simp, by simp [List.count_replicate], ?_⟩
      intro x
      simp only [at_replicate, Bool.and_false, Bool.false_eq_true, false_iff]
      rintro ⟨i, h1, h2, _⟩
      omega)
    (by
      rintro j b h1 h2 ⟨h3, h4, h5⟩
      obtain ⟨x, hx⟩ := rd_isSome (v := v) (i := j) (by omega)
      have hxl := hlt x (List.mem_of_getElem? hx)
      simp only [Option.bind_eq_bind]
      rw [hx, Option.bind_some, wr_at (by omega)]
      have hxb : at' b x = false := by
        cases h : at' b x with
        | false => rfl
        | true =>
          obtain ⟨i, g1, g2, g3⟩ := (h5 x).1 h
          have := rd_nodup_inj hnd g3 hx
          omega
      refine ⟨_, rfl, by simpa using h3, ?_, ?_⟩
      · rw [count_true_set (by omega) hxb]
        omega
      · intro y
        rw [at_set (by omega)]
        by_cases hyx : y = x
        · subst hyx
          simp only [if_true, true_iff]
          exact ⟨j, h1, by omega, hx⟩
        · rw [if_neg hyx, h5]
          constructor
          · rintro ⟨i, g1, g2, g3⟩; exact ⟨i, g1, by omega, g3⟩
          · rintro ⟨i, g1, g2, g3⟩
            refine ⟨i, g1, ?_, g3⟩
            by_contra hi
            have : i = j := by omega
            subst this
            rw [hx] at g3; cases g3
            exact hyx rfl)
  exact ⟨b, e, h⟩

theorem keyLess_weak {K : Type} {lt : K → K → Bool} (hlt : StrictWeak lt fun _ => True) {keys : List K} {l : List Nat}
    (h : ∀ x ∈ l, x < keys.length) : StrictWeak (keyLess lt keys) (· ∈ l) := by
  have hk : ∀ x ∈ l, ∃ a, keys[x]? = some a := fun x hx => ⟨_, List.getElem?_eq_getElem (h x hx)⟩
  constructor
  · intro a ha
    obtain ⟨u, hu⟩ := hk a ha
    unfold keyLess
    rw [hu]
    exact hlt.irrefl u trivial
  · intro a b c ha hb hc h1 h2
    obtain ⟨u, hu⟩ := hk a ha
    obtain ⟨v, hv⟩ := hk b hb
    obtain ⟨w, hw⟩ := hk c hc
    unfold keyLess at h1 h2 ⊢
    rw [hu, hv] at h1
    rw [hv, hw] at h2
    rw [hu, hw]
    exact hlt.trans u v w trivial trivial trivial h1 h2
  · intro a b c ha hb hc h1 h2 h3 h4
    obtain ⟨u, hu⟩ := hk a ha
    obtain ⟨v, hv⟩ := hk b hb
    obtain ⟨w, hw⟩ := hk c hc
    unfold keyLess at h1 h2 h3 h4 ⊢
    rw [hu, hv] at h1
    rw [hv, hu] at h2
    rw [hv, hw] at h3
    rw [hw, hv] at h4
    rw [hu, hw]
    exact hlt.incomp u v w trivial trivial trivial h1 h2 h3 h4

theorem mem_take_rd {α : Type} {l : List α} {k : Nat} {x : α} : x ∈ l.take k ↔ ∃ i, i < k ∧ rd l i = some x := by
  rw [List.mem_iff_getElem?]
  constructor
  · rintro ⟨i, hi⟩
    rw [List.getElem?_take] at hi
    split at hi
    · exact ⟨i, by assumption, hi⟩
    · cases hi
  · rintro ⟨i, h1, h2⟩
    refine ⟨i, ?_⟩
    rw [List.getElem?_take, if_pos h1]
    exact h2

theorem mem_drop_rd {α : Type} {l : List α} {k : Nat} {x : α} : x ∈ l.drop k ↔ ∃ i, k ≤ i ∧ rd l i = some x := by
  rw [List.mem_iff_getElem?]
  constructor
  · rintro ⟨i, hi⟩
    rw [List.getElem?_drop] at hi
    exact ⟨k + i, by omega, hi⟩
  · rintro ⟨i, h1, h2⟩
    refine ⟨i - k, ?_⟩
    rw [List.getElem?_drop]
    have : k + (i - k) = i := by omega
    rw [this]
    exact h2

theorem selectEnds_spec {K : Type} {lt : K → K → Bool} (hlt : StrictWeak lt fun _ => True) {nth : Nth} (hnth : NthOk nth)
    {n m : Nat} (h1 : n ≤ m / 2) {keys : List K} (hk : keys.length = m) :
    ∃ src tgt, selectEnds lt nth n m keys = some (src, tgt) ∧ Extremes lt keys n src tgt := by
  have hle : decide (n ≤ m / 2) = true := decide_eq_true h1
  have e1 : nthElem nth (keyLess lt keys) (List.range m) 0 n = some (nth (keyLess lt keys) (List.range m) n) := by
    unfold nthElem
    rw [if_pos (by simp; omega)]
    simp
  obtain ⟨p1, o1⟩ := hnth (keyLess lt keys) (List.range m) n (keyLess_weak hlt (by
    intro x hx
    rw [List.mem_range] at hx
    omega)) (by simp; omega)
  generalize nth (keyLess lt keys) (List.range m) n = v1 at e1 p1 o1
  have hl1 : v1.length = m := by rw [p1.length_eq, List.length_range]
  have hm1 : ∀ x, x ∈ v1 ↔ x < m := fun x => by rw [p1.mem_iff, List.mem_range]
  have e2 : nthElem nth (keyLess lt keys) v1 n (m - n) =
      some (v1.take n ++ nth (keyLess lt keys) (v1.drop n) (m - n - n)) := by
    unfold nthElem
    rw [if_pos (by omega)]
  obtain ⟨p2, o2⟩ := hnth (keyLess lt keys) (v1.drop n) (m - n - n) (keyLess_weak hlt (by
    intro x hx
    have := (hm1 x).1 (List.mem_of_mem_drop hx)
    omega)) (by simp; omega)
  generalize nth (keyLess lt keys) (v1.drop n) (m - n - n) = r at e2 p2 o2
  have hlr : r.length = m - n := by rw [p2.length_eq]; simp [hl1]
  have hlt1 : (v1.take n).length = n := by rw [List.length_take]; omega
  have pv : (v1.take n ++ r).Perm (List.range m) := by
    refine List.Perm.trans ?_ p1
    conv => rhs; rw [← List.take_append_drop n v1]
    exact List.Perm.append_left _ p2
  have hnd : (v1.take n ++ r).Nodup := pv.nodup_iff.2 List.nodup_range
  have hmv : ∀ x ∈ v1.take n ++ r, x < m := fun x hx => List.mem_range.1 (pv.mem_iff.1 hx)
  have hlv : (v1.take n ++ r).length = m := by rw [pv.length_eq, List.length_range]
  obtain ⟨src, es, hs1, hs2, hs3⟩ := markRange_spec (lo := 0) (hi := n) hnd hmv (Nat.zero_le _) (by omega)
  obtain ⟨tgt, et, ht1, ht2, ht3⟩ := markRange_spec (lo := m - n) (hi := m) hnd hmv (by omega) (by omega)
  -- sources and targets by position
  have hsrc : ∀ x, at' src x = true ↔ x ∈ v1.take n := by
    intro x
    rw [hs3, mem_take_rd]
    constructor
    · rintro ⟨i, _, g1, g2⟩
      refine ⟨i, g1, ?_⟩
      unfold rd at g2 ⊢
      rw [List.getElem?_append_left (by omega), List.getElem?_take, if_pos g1] at g2
      exact g2
    · rintro ⟨i, g1, g2⟩
      refine ⟨i, Nat.zero_le _, g1, ?_⟩
      unfold rd at g2 ⊢
      rw [List.getElem?_append_left (by omega), List.getElem?_take, if_pos g1]
      exact g2
  have htgt : ∀ x, at' tgt x = true ↔ x ∈ r.drop (m - n - n) := by
    intro x
    rw [ht3, mem_drop_rd]
    constructor
    · rintro ⟨i, g0, g1, g2⟩
      refine ⟨i - n, by omega, ?_⟩
      unfold rd at g2 ⊢
      rw [List.getElem?_append_right (by omega), hlt1] at g2
      exact g2
    · rintro ⟨i, g1, g2⟩
      have := rd_some_lt g2
      refine ⟨i + n, by omega, by omega, ?_⟩
      unfold rd at g2 ⊢
      rw [List.getElem?_append_right (by omega), hlt1]
      simpa using g2
  have hout : ∀ x, x < m → at' src x = false → x ∈ v1.drop n := by
    intro x hx hs
    have := (hm1 x).2 hx
    rw [← List.take_append_drop n v1, List.mem_append] at this
    rcases this with h | h
    · rw [(hsrc x).2 h] at hs; cases hs
    · exact h
  have hdisj : ∀ x, at' src x = true → at' tgt x = true → False := by
    intro x g1 g2
    have g3 := (hsrc x).1 g1
    have g4 := List.mem_of_mem_drop ((htgt x).1 g2)
    exact (List.nodup_append.1 hnd).2.2 x g3 x g4 rfl
  have hkl : ∀ (x y : Nat) (a b : K), keys[x]? = some a → keys[y]? = some b → keyLess lt keys x y = lt a b := by
    intro x y a b g1 g2
    unfold keyLess
    rw [g1, g2]
  have hfalse : ∀ {B : List Bool} {x : Nat}, B[x]? = some false → at' B x = false := by
    intro B x h
    cases hb : at' B x with
    | false => rfl
    | true => rw [at_iff.1 hb] at h; cases h
  refine ⟨src, tgt, ?_, ⟨by omega, by omega, by omega, by omega, fun x g1 g2 => hdisj x (at_iff.2 g1) (at_iff.2 g2), ?_, ?_⟩⟩
  · unfold selectEnds
    rw [hle]
    simp only [Option.bind_eq_bind, check_true, Option.bind_some]
    rw [e1, Option.bind_some, e2, Option.bind_some]
    simp only [Option.bind_eq_bind] at es et
    rw [es, Option.bind_some, et, Option.bind_some]
  · intro x y a b g1 g2 g3 g4
    have hy : y < m := by have := rd_some_lt (v := keys) g4; omega
    have := o1 x ((hsrc x).1 (at_iff.2 g1)) y (hout y hy (hfalse g2))
    rw [hkl y x b a g4 g3] at this
    exact this
  · intro x y a b g1 g2 g3 g4
    have hy : y < m := by have := rd_some_lt (v := keys) g4; omega
    have hx := (htgt x).1 (at_iff.2 g1)
    cases hs : at' src y with
    | true =>
      have hxd : x ∈ v1.drop n := p2.mem_iff.1 (List.mem_of_mem_drop hx)
      have := o1 y ((hsrc y).1 hs) x hxd
      rw [hkl x y a b g3 g4] at this
      exact this
    | false =>
      have hyr : y ∈ r := p2.mem_iff.2 (hout y hy hs)
      rw [← List.take_append_drop (m - n - n) r, List.mem_append] at hyr
      rcases hyr with h | h
      · have := o2 y h x hx
        rw [hkl x y a b g3 g4] at this
        exact this
      · have := hfalse g2
        rw [(htgt y).2 h] at this; cases this

theorem extremes_ends {K : Type} {lt : K → K → Bool} {keys : List K} {n : Nat} {src tgt : List Bool} {f : GraphFragment}
    (h : Extremes lt keys n src tgt) (hk : keys.length = f.globalNodeId.length) (hn : 0 < n) : EndsOk f src tgt := by
  have key : ∀ l : List Bool, l.count true = n → ∃ x : Nat, l[x]? = some true := by
    intro l hl
    have : true ∈ l := List.count_pos_iff.1 (by omega)
    exact List.getElem?_of_mem this
  exact ⟨by have := h.source_len; omega, by have := h.target_len; omega, key src h.source_count, key tgt h.target_count,
    h.disjoint⟩

/-! ### The four cutters -/

/-- How much a flow can still change. -/
def cutMeasure (f : GraphFragment) (w : Flow) : Nat := (f.arcCount - w.intensity) + if w.finished then 0 else 1

theorem advance_measure {f : GraphFragment} (o : FragmentOk f) (hm : f.arcCount < u32) {src tgt : List Bool}
    (h : EndsOk f src tgt) {w : Flow} (W : FlowInv f src tgt w) (hf : w.finished = false) :
    ∃ w', advance f w = some w' ∧ FlowInv f src tgt w' ∧ cutMeasure f w' < cutMeasure f w := by
  obtain ⟨w', e, W', h1⟩ := advance_spec o hm (endsOk_ends h) (endsOk_target h) W
  refine ⟨w', e, W', ?_⟩
  have hle := flowInv_le o (endsOk_ends h) W'.val
  unfold cutMeasure
  rw [hf]
  rcases h1 with ⟨h2, h3, _⟩ | ⟨_, h2, h3⟩
  · rw [h2, h3]
    simp
  · rw [h2]
    simp
    omega

/-- The four pairs of ends and their flows. -/
def FourFlows (f : GraphFragment) (es : List (List Bool × List Bool)) (ws : List Flow) : Prop :=
  es.length = 4 ∧ List.Forall₂ (fun e w => FlowInv f e.1 e.2 w) es ws

theorem nextCutter_spec {a b c d : Flow} :
    ∃ i w, nextCutter [a, b, c, d] = some i ∧ rd [a, b, c, d] i = some w ∧ ∀ w' ∈ [a, b, c, d], w.intensity ≤ w'.intensity := by
  simp only [nextCutter]
  split
  · refine ⟨0, a, rfl, rfl, ?_⟩
    intro w' hw
    simp only [List.mem_cons, List.not_mem_nil, or_false] at hw
    rcases hw with rfl | rfl | rfl | rfl <;> omega
  · split
    · refine ⟨1, b, rfl, rfl, ?_⟩
      intro w' hw
      simp only [List.mem_cons, List.not_mem_nil, or_false] at hw
      rcases hw with rfl | rfl | rfl | rfl <;> omega
    · split
      · refine ⟨2, c, rfl, rfl, ?_⟩
        intro w' hw
        simp only [List.mem_cons, List.not_mem_nil, or_false] at hw
        rcases hw with rfl | rfl | rfl | rfl <;> omega
      · refine ⟨3, d, rfl, rfl, ?_⟩
        intro w' hw
        simp only [List.mem_cons, List.not_mem_nil, or_false] at hw
        rcases hw with rfl | rfl | rfl | rfl <;> omega

theorem forall2_rd {α β : Type} {R : α → β → Prop} : ∀ {as : List α} {bs : List β}, List.Forall₂ R as bs → ∀ {i : Nat} {b : β},
    rd bs i = some b → ∃ a, rd as i = some a ∧ R a b
  | [], [], _, i, b, h => by cases i <;> cases h
  | a :: as, b' :: bs, .cons h1 h2, 0, b, h => by
    cases h
    exact ⟨a, rfl, h1⟩
  | a :: as, b' :: bs, .cons h1 h2, i + 1, b, h => by
    obtain ⟨a', e, r⟩ := forall2_rd h2 (i := i) (b := b) h
    exact ⟨a', e, r⟩

theorem forall2_set {α β : Type} {R : α → β → Prop} : ∀ {as : List α} {bs : List β}, List.Forall₂ R as bs → ∀ {i : Nat} {a : α} {b : β},
    rd as i = some a → R a b → List.Forall₂ R as (bs.set i b)
  | [], [], _, i, a, b, h, _ => by cases i <;> cases h
  | a' :: as, b' :: bs, .cons h1 h2, 0, a, b, h, r => by
    cases h
    exact .cons r h2
  | a' :: as, b' :: bs, .cons h1 h2, i + 1, a, b, h, r => .cons h1 (forall2_set h2 (i := i) (a := a) (b := b) h r)

theorem sum_set_lt {α : Type} (g : α → Nat) : ∀ {l : List α} {i : Nat} {a b : α}, rd l i = some a → g b < g a →
    ((l.set i b).map g).sum < (l.map g).sum
  | [], i, a, b, h, _ => by cases i <;> cases h
  | a' :: l, 0, a, b, h, hlt => by
    cases h
    simp
    omega
  | a' :: l, i + 1, a, b, h, hlt => by
    have := sum_set_lt g (l := l) (i := i) (a := a) (b := b) h hlt
    simp only [List.set_cons_succ, List.map_cons, List.sum_cons]
    omega

theorem cutterLoop_spec {f : GraphFragment} (o : FragmentOk f) (hm : f.arcCount < u32) {es : List (List Bool × List Bool)}
    (hes : ∀ e ∈ es, EndsOk f e.1 e.2) : ∀ (fuel : Nat) (ws : List Flow), FourFlows f es ws →
    (ws.map (cutMeasure f)).sum < fuel →
    ∃ c ws', cutterLoop f fuel ws = some c ∧ FourFlows f es ws' ∧ ∃ w ∈ ws', w.finished = true ∧
      getBalancedCut f w = some c ∧ ∀ w' ∈ ws', w.intensity ≤ w'.intensity
  | 0, ws, _, h => absurd h (Nat.not_lt_zero _)
  | fuel + 1, ws, F, h => by
    obtain ⟨h4, F2⟩ := F
    have hlen := F2.length_eq
    have hws : ∃ a b c d, ws = [a, b, c, d] := by
      match ws, hlen with
      | [a, b, c, d], _ => exact ⟨a, b, c, d, rfl⟩
      | [], h => rw [List.length_nil] at h; omega
      | [_], h => simp at h; omega
      | [_, _], h => simp at h; omega
      | [_, _, _], h => simp at h; omega
      | _ :: _ :: _ :: _ :: _ :: _, h => simp at h; omega
    obtain ⟨a, b, c, d, rfl⟩ := hws
    · obtain ⟨i, w, e1, e2, hmin⟩ := nextCutter_spec (a := a) (b := b) (c := c) (d := d)
      obtain ⟨e, he, W⟩ := forall2_rd F2 e2
      have hE := hes e (List.mem_of_getElem? he)
      unfold cutterLoop
      simp only [Option.bind_eq_bind]
      rw [e1, Option.bind_some, e2, Option.bind_some]
      cases hf : w.finished with
      | false =>
        simp only [Bool.not_false, if_true]
        obtain ⟨w', e3, W', hlt⟩ := advance_measure o hm hE W hf
        rw [e3, Option.bind_some, wr_lt (rd_some_lt e2), Option.bind_some]
        have := sum_set_lt (cutMeasure f) e2 hlt
        exact cutterLoop_spec o hm hes fuel _ ⟨h4, forall2_set F2 he W'⟩ (by omega)
      | true =>
        simp only [Bool.not_true, Bool.false_eq_true, if_false]
        obtain ⟨cut, e3, _⟩ := getBalancedCut_spec o hE W hf
        exact ⟨cut, [a, b, c, d], e3, ⟨h4, F2⟩, w, List.mem_of_getElem? e2, hf, e3, hmin⟩

theorem coords_spec {K : Type} {f : GraphFragment} {c : List K} (h : ∀ g ∈ f.globalNodeId, g < c.length) :
    ∃ keys, coords f c = some keys ∧ keys.length = f.globalNodeId.length ∧ f.globalNodeId.map (c[·]?) = keys.map some := by
  unfold coords
  generalize f.globalNodeId = l at h
  induction l with
  | nil => exact ⟨[], rfl, rfl, rfl⟩
  | cons g l ih =>
    obtain ⟨keys, e, h1, h2⟩ := ih (fun g hg => h g (List.mem_cons_of_mem _ hg))
    have hg : rd c g = some (c[g]'(h g List.mem_cons_self)) := rd_lt (h g List.mem_cons_self)
    refine ⟨c[g]'(h g List.mem_cons_self) :: keys, ?_, by simp [h1], ?_⟩
    · rw [List.mapM_cons, hg, e]
      rfl
    · have hg' : c[g]? = some (c[g]'(h g List.mem_cons_self)) := hg
      simp only [List.map_cons]
      rw [h2, hg']

theorem newCutter_spec {K : Type} {lt : K → K → Bool} (hlt : StrictWeak lt fun _ => True) {nth : Nth} (hnth : NthOk nth)
    (junk : Nat → Bool) {f : GraphFragment} {n : Nat} (h0 : 0 < n) (h1 : n ≤ f.nodeCount / 2) {keys : List K}
    (hk : keys.length = f.nodeCount) :
    ∃ src tgt w, newCutter lt nth junk f n keys = some w ∧ Extremes lt keys n src tgt ∧ EndsOk f src tgt ∧
      FlowInv f src tgt w ∧ cutMeasure f w ≤ f.arcCount + 1 := by
  obtain ⟨src, tgt, e, X⟩ := selectEnds_spec hlt hnth h1 hk
  have E := extremes_ends X hk h0
  obtain ⟨w, e', W, h2, h3⟩ := newFlow_spec E junk
  refine ⟨src, tgt, w, ?_, X, E, W, ?_⟩
  · unfold newCutter
    simp only [Option.bind_eq_bind]
    rw [e, Option.bind_some, e']
  · unfold cutMeasure
    rw [h2, h3]
    simp

theorem sideSize_pos (n b : Nat) : 0 < sideSize n b := by
  unfold sideSize
  simp only
  split <;> omega

theorem sideSize_le {n b : Nat} (hn : 2 ≤ n) (hb : b ≤ 50) : sideSize n b ≤ n / 2 := by
  have h1 : mul32 n b ≤ n * b := Nat.mod_le _ _
  have h2 : n * b ≤ n * 50 := Nat.mul_le_mul_left _ hb
  unfold sideSize
  simp only
  split <;> omega

theorem sideSize_eq {n b : Nat} : sideSize n b = max 1 (n * b % 2 ^ 32 / 100) := by
  have : mul32 n b = n * b % 2 ^ 32 := rfl
  unfold sideSize
  rw [this]
  simp only
  split <;> omega

theorem inertialFlowBalance_spec {K : Type} {lt : K → K → Bool} (hlt : StrictWeak lt fun _ => True) {nth : Nth}
    (hnth : NthOk nth) (junk : Nat → Bool) (add sub : K → K → K) {lat lon : List K} {f : GraphFragment}
    (o : FragmentOk f) (hm : f.arcCount < u32) (hn : 2 ≤ f.nodeCount) (hlat : ∀ g ∈ f.globalNodeId, g < lat.length)
    (hlon : ∀ g ∈ f.globalNodeId, g < lon.length) {b : Nat} (hb : b ≤ 50) :
    ∃ c, inertialFlowBalance lt add sub nth junk lat lon b f = some c ∧
      InertialCut lt add sub lat lon f (sideSize f.nodeCount b) c := by
  obtain ⟨lats, e1, l1, m1⟩ := coords_spec hlat
  obtain ⟨lons, e2, l2, m2⟩ := coords_spec hlon
  have hpos := sideSize_pos f.nodeCount b
  have hle := sideSize_le hn hb
  obtain ⟨s1, t1, w1, c1, X1, E1, W1, M1⟩ := newCutter_spec hlt hnth junk hpos hle l1
  obtain ⟨s2, t2, w2, c2, X2, E2, W2, M2⟩ := newCutter_spec hlt hnth junk hpos hle l2
  obtain ⟨s3, t3, w3, c3, X3, E3, W3, M3⟩ := newCutter_spec hlt hnth junk hpos hle
    (keys := List.zipWith add lats lons) (by rw [List.length_zipWith]; have : f.nodeCount = f.globalNodeId.length := rfl; omega)
  obtain ⟨s4, t4, w4, c4, X4, E4, W4, M4⟩ := newCutter_spec hlt hnth junk hpos hle
    (keys := List.zipWith sub lats lons) (by rw [List.length_zipWith]; have : f.nodeCount = f.globalNodeId.length := rfl; omega)
  have F : FourFlows f [(s1, t1), (s2, t2), (s3, t3), (s4, t4)] [w1, w2, w3, w4] :=
    ⟨rfl, .cons W1 (.cons W2 (.cons W3 (.cons W4 .nil)))⟩
  have hes : ∀ e ∈ [(s1, t1), (s2, t2), (s3, t3), (s4, t4)], EndsOk f e.1 e.2 := by
    intro e he
    simp only [List.mem_cons, List.not_mem_nil, or_false] at he
    rcases he with rfl | rfl | rfl | rfl <;> assumption
  obtain ⟨c, ws', e, ⟨_, F2⟩, w, hw, hfin, hcut, hmin⟩ := cutterLoop_spec o hm hes (4 * (f.arcCount + 1) + 1) _ F (by
    simp only [List.map_cons, List.map_nil, List.sum_cons, List.sum_nil]
    omega)
  obtain ⟨i, hi⟩ := List.getElem?_of_mem hw
  obtain ⟨ends, he, W⟩ := forall2_rd F2 (i := i) hi
  have hE := hes ends (List.mem_of_getElem? he)
  obtain ⟨c', e', hmc, hsz, hsm, _⟩ := getBalancedCut_spec o hE W hfin
  rw [hcut] at e'; cases e'
  have uni : ∀ (a b : List K), a.map some = b.map some → a = b := by
    intro a b h
    exact List.map_injective_iff.2 (Option.some_injective K) h
  -- every flow bounds the cuts of its ends
  have hbest : ∀ src tgt, (src, tgt) ∈ [(s1, t1), (s2, t2), (s3, t3), (s4, t4)] →
      ∀ side, Separates src tgt side → c.cutSize ≤ leaving f side := by
    intro src tgt hin side hs
    have hEe := hes _ hin
    obtain ⟨j, hj⟩ := List.getElem?_of_mem hin
    obtain ⟨w', hw'⟩ := rd_isSome (v := ws') (i := j) (by rw [← F2.length_eq]; exact rd_some_lt (v := _) hj)
    obtain ⟨e'', he'', W'⟩ := forall2_rd F2 (i := j) hw'
    have : (src, tgt) = e'' := by
      have h5 := he''
      unfold rd at h5
      rw [hj] at h5
      injection h5
    subst this
    obtain ⟨h1, h2⟩ := separates_at hs
    have h3 := W'.val (at' side) h1 h2
    have h4 := flowOut_le o w'.sat (at' side)
    have h5 := leavingSum_eq o (side := side) (by have := hs.len; have := hEe.source_len; have : f.nodeCount = f.globalNodeId.length := rfl; simp only at *; omega)
    have h6 := hmin w' (List.mem_of_getElem? hw')
    omega
  have hdir : ∀ keys, Direction add sub lat lon f keys → ∃ src tgt, Extremes lt keys (sideSize f.nodeCount b) src tgt ∧
      (src, tgt) ∈ [(s1, t1), (s2, t2), (s3, t3), (s4, t4)] := by
    intro keys hd
    cases hd with
    | horizontal keys h =>
      have : keys = lats := uni _ _ (h.symm.trans m1)
      subst this
      exact ⟨s1, t1, X1, by simp⟩
    | vertical keys h =>
      have : keys = lons := uni _ _ (h.symm.trans m2)
      subst this
      exact ⟨s2, t2, X2, by simp⟩
    | mainDiagonal a b h h' =>
      have e1 : a = lats := uni _ _ (h.symm.trans m1)
      have e2 : b = lons := uni _ _ (h'.symm.trans m2)
      subst e1; subst e2
      exact ⟨s3, t3, X3, by simp⟩
    | nextDiagonal a b h h' =>
      have e1 : a = lats := uni _ _ (h.symm.trans m1)
      have e2 : b = lons := uni _ _ (h'.symm.trans m2)
      subst e1; subst e2
      exact ⟨s4, t4, X4, by simp⟩
  have hthis : ∃ keys, Direction add sub lat lon f keys ∧ Extremes lt keys (sideSize f.nodeCount b) ends.1 ends.2 := by
    have hin := List.mem_of_getElem? he
    simp only [List.mem_cons, List.not_mem_nil, or_false] at hin
    rcases hin with rfl | rfl | rfl | rfl
    · exact ⟨_, .horizontal _ m1, X1⟩
    · exact ⟨_, .vertical _ m2, X2⟩
    · exact ⟨_, .mainDiagonal _ _ m1 m2, X3⟩
    · exact ⟨_, .nextDiagonal _ _ m1 m2, X4⟩
  obtain ⟨keys, hd, X⟩ := hthis
  refine ⟨c, ?_, ⟨keys, ends.1, ends.2, hd, X, hmc⟩, ?_, ?_, hsm⟩
  · unfold inertialFlowBalance
    simp only [Option.bind_eq_bind]
    rw [e1, Option.bind_some, e2, Option.bind_some, c1, Option.bind_some, c2, Option.bind_some, c3, Option.bind_some,
      c4, Option.bind_some, e]
  · intro keys' hd'
    obtain ⟨src, tgt, X', hin⟩ := hdir keys' hd'
    exact ⟨src, tgt, X', hbest src tgt hin⟩
  · rcases hmc with M | M
    · rw [M.nodes, ← X.source_count]
      have := M.separates.len
      exact count_true_mono (by omega) (separates_at M.separates).1
    · rw [M.nodes, ← X.target_count]
      have := M.separates.len
      exact count_true_mono (by omega) (separates_at M.separates).1

end RK
