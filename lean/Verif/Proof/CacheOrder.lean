import Verif.Model.ChBuild
import Verif.Proof.IdQueue
import Verif.Proof.Permutation
import Verif.Proof.Csr
import Verif.Proof.Fn
/-! Helper lemmas about `optimize_order_for_cache`. -/
namespace RK
open Spec

/-- `y` is the head of an arc leaving `x`. -/
def HeadOf (fo head : List Nat) (x y : Nat) : Prop := ∃ a, OutArc fo x a ∧ rd head a = some y

theorem clearHeads_spec : ∀ (head : List Nat) (b : List Bool), (∀ h ∈ head, h < b.length) →
    ∃ b', clearHeads head b = some b' ∧ b'.length = b.length ∧
      ∀ x, rd b' x = if x ∈ head then some false else rd b x
  | [], b, _ => ⟨b, rfl, rfl, by simp⟩
  | h :: l, b, hl => by
    have hh : h < b.length := hl h (by simp)
    obtain ⟨b', e, h1, h2⟩ := clearHeads_spec l (b.set h false) (by
      intro x hx; simpa using hl x (by simp [hx]))
    refine ⟨b', ?_, by simpa using h1, ?_⟩
    · unfold clearHeads at e ⊢
      simp only [forEach, wr_lt hh, Option.bind_some]
      exact e
    · intro x
      rw [h2, rd_set hh]
      by_cases hx : x ∈ l
      · simp [hx]
      · by_cases hxh : x = h
        · simp [hxh]
        · simp [hx, hxh]

/-- The nodes `P` were popped since the last root, in this order; `L` are the nodes of earlier roots. -/
structure CS (n : Nat) (ord : Nat → Nat) (L P : List Nat) (m : Nat → Option Nat) (s : CacheState) : Prop where
  len : s.newOrder.length = n
  drop : s.newOrder.drop s.fin = P.reverse ++ L
  fin : s.fin + P.length + L.length = n
  rep : MinIDQueue.Rep s.queue n m
  key : ∀ x k, m x = some k → k = ord x ∧ x < n
  isLen : s.isIn.length = n
  isIn : ∀ x, x < n → (rd s.isIn x = some true ↔ x ∈ P ∨ x ∈ L ∨ (m x).isSome = true)
  disj : ∀ x, (m x).isSome = true → x ∉ P ∧ x ∉ L
  nodup : (P ++ L).Nodup
  lt : ∀ x ∈ P ++ L, x < n

/-- `m'` has in addition to `m` the nodes `N`. -/
def Ext (ord : Nat → Nat) (m m' : Nat → Option Nat) (N : Nat → Prop) : Prop :=
  (∀ x, (m x).isSome = true → m' x = m x) ∧ ∀ x k, m' x = some k → m x = some k ∨ (k = ord x ∧ N x)

theorem Ext.refl (ord : Nat → Nat) (m : Nat → Option Nat) (N : Nat → Prop) : Ext ord m m N :=
  ⟨fun _ _ => rfl, fun _ _ h => Or.inl h⟩

theorem Ext.trans {ord : Nat → Nat} {m m' m'' : Nat → Option Nat} {N : Nat → Prop} (h : Ext ord m m' N)
    (h' : Ext ord m' m'' N) : Ext ord m m'' N := by
  refine ⟨?_, ?_⟩
  · intro x hx
    have := h.1 x hx
    rw [h'.1 x (by rw [this]; exact hx), this]
  · intro x k hk
    rcases h'.2 x k hk with h1 | h1
    · exact h.2 x k h1
    · exact Or.inr h1

theorem Ext.mono {ord : Nat → Nat} {m m' : Nat → Option Nat} {N N' : Nat → Prop} (h : Ext ord m m' N)
    (hN : ∀ x, N x → N' x) : Ext ord m m' N' :=
  ⟨h.1, fun x k hk => (h.2 x k hk).imp id fun h => ⟨h.1, hN x h.2⟩⟩

variable {n : Nat} {ord : Nat → Nat} {bottom : List Bool} {rank : List Nat}

theorem onNode_spec (hr : ∀ x, x < n → rd rank x = some (ord x)) {L P : List Nat} {m : Nat → Option Nat}
    {s : CacheState} (hs : CS n ord L P m s) {y : Nat} (hy : y < n) (hb : rd bottom y = some false) :
    ∃ s' m', onNode bottom rank s y = some s' ∧ CS n ord L P m' s' ∧ Ext ord m m' (fun x => x = y) ∧
      (y ∈ P ∨ y ∈ L ∨ (m' y).isSome = true) := by
  obtain ⟨b, hbb⟩ := rd_isSome (v := s.isIn) (i := y) (by rw [hs.isLen]; exact hy)
  unfold onNode
  simp only [hb, hbb, Option.bind_eq_bind, Option.bind_some, Bool.not_false, check_true]
  cases b with
  | true =>
    simp only [if_true]
    exact ⟨s, m, rfl, hs, Ext.refl _ _ _, (hs.isIn y hy).1 hbb⟩
  | false =>
    have hno : ¬ (y ∈ P ∨ y ∈ L ∨ (m y).isSome = true) := by
      rw [← hs.isIn y hy, hbb]; simp
    have hm : m y = none := by
      cases hc : m y with
      | none => rfl
      | some k => exact absurd (Or.inr (Or.inr (by rw [hc]; rfl))) hno
    obtain ⟨q', e, hq⟩ := hs.rep.push (p := ⟨y, ord y⟩) hy hm
    have hyl : y < s.isIn.length := by rw [hs.isLen]; exact hy
    simp only [Bool.false_eq_true, if_false, wr_lt hyl, Option.bind_some, hr y hy, e]
    refine ⟨_, _, rfl, ⟨hs.len, hs.drop, hs.fin, hq, ?_, by simp [hs.isLen], ?_, ?_, hs.nodup, hs.lt⟩, ⟨?_, ?_⟩, ?_⟩
    · intro x k hk
      simp only at hk
      by_cases hxy : x = y
      · rw [if_pos hxy] at hk; cases hk; rw [hxy]; exact ⟨rfl, hy⟩
      · rw [if_neg hxy] at hk; exact hs.key x k hk
    · intro x hx
      simp only
      rw [rd_set hyl]
      by_cases hxy : x = y
      · simp [hxy]
      · simp only [if_neg hxy]; exact hs.isIn x hx
    · intro x hx
      simp only at hx
      by_cases hxy : x = y
      · rw [hxy]; exact ⟨fun h => hno (Or.inl h), fun h => hno (Or.inr (Or.inl h))⟩
      · rw [if_neg hxy] at hx; exact hs.disj x hx
    · intro x hx
      simp only
      rw [if_neg]
      rintro rfl
      rw [hm] at hx; cases hx
    · intro x k hk
      simp only at hk
      by_cases hxy : x = y
      · rw [if_pos hxy] at hk; cases hk; exact Or.inr ⟨by rw [hxy], hxy⟩
      · rw [if_neg hxy] at hk; exact Or.inl hk
    · right; right; simp

theorem Ext.keep {m m' : Nat → Option Nat} {N : Nat → Prop} (h : Ext ord m m' N) {P L : List Nat} {y : Nat}
    (hy : y ∈ P ∨ y ∈ L ∨ (m y).isSome = true) : y ∈ P ∨ y ∈ L ∨ (m' y).isSome = true := by
  rcases hy with hy | hy | hy
  · exact Or.inl hy
  · exact Or.inr (Or.inl hy)
  · exact Or.inr (Or.inr (by rw [h.1 y hy]; exact hy))

theorem onHeads_spec (hr : ∀ x, x < n → rd rank x = some (ord x)) {fo head : List Nat}
    (hcsr : IsCSR n fo head) (hb : ∀ y ∈ head, rd bottom y = some false)
    {L P : List Nat} {m : Nat → Option Nat} {s : CacheState} (hs : CS n ord L P m s) {x : Nat} (hx : x < n) :
    ∃ s' m', onHeads bottom rank fo head x s = some s' ∧ CS n ord L P m' s' ∧ Ext ord m m' (HeadOf fo head x) ∧
      ∀ y, HeadOf fo head x y → y ∈ P ∨ y ∈ L ∨ (m' y).isSome = true := by
  obtain ⟨b, e, hb1, he1, hbe, hel⟩ := hcsr.range hx
  unfold onHeads
  simp only [show rd fo x = some b from hb1, show rd fo (x + 1) = some e from he1, Option.bind_eq_bind, Option.bind_some]
  obtain ⟨s', es, m', h1, h2, h3⟩ := forRange_inv
    (f := fun (s : CacheState) xy => (rd head xy).bind fun y => onNode bottom rank s y)
    (lo := b) (hi := e) (s := s)
    (fun i s' => ∃ m', CS n ord L P m' s' ∧ Ext ord m m' (HeadOf fo head x) ∧
      ∀ j y, b ≤ j → j < i → rd head j = some y → y ∈ P ∨ y ∈ L ∨ (m' y).isSome = true) hbe
    ⟨m, hs, Ext.refl _ _ _, fun j y h1 h2 => by omega⟩
    (by
      rintro i s1 h1 h2 ⟨m1, hs1, he, hall⟩
      obtain ⟨y, hy⟩ := rd_isSome (v := head) (i := i) (by omega)
      have hyn : y < n := hcsr.head_lt i y hy
      obtain ⟨s2, m2, e2, hs2, he2, hy2⟩ := onNode_spec (bottom := bottom) hr hs1 hyn (hb y (List.mem_of_getElem? hy))
      refine ⟨s2, by simp only [hy, Option.bind_some, e2], m2, hs2, he.trans (he2.mono ?_), ?_⟩
      · rintro z rfl
        exact ⟨i, ⟨b, e, hb1, he1, h1, h2⟩, hy⟩
      · intro j z hj1 hj2 hz
        by_cases hji : j = i
        · subst hji; rw [hy] at hz; cases hz; exact hy2
        · exact he2.keep (hall j z hj1 (by omega) hz))
  refine ⟨s', m', es, h1, h2, ?_⟩
  rintro y ⟨a, ⟨b', e', hb', he', ha1, ha2⟩, hy⟩
  rw [hb1] at hb'; rw [he1] at he'
  cases hb'; cases he'
  exact h3 a y ha1 ha2 hy

/-- Additional facts while the nodes above a root are collected. -/
structure CP (E : Nat → Nat → Prop) (ord : Nat → Nat) (L P : List Nat) (m : Nat → Option Nat) : Prop where
  asc : P.Pairwise (fun a b => ord a ≤ ord b)
  low : ∀ x ∈ P, ∀ y k, m y = some k → ord x ≤ k
  closed : ∀ x ∈ P, ∀ y, E x y → y ∈ P ∨ y ∈ L ∨ (m y).isSome = true

theorem cacheStep_spec (hr : ∀ x, x < n → rd rank x = some (ord x)) {ffo fhead bfo bhead : List Nat}
    (hf : IsCSR n ffo fhead) (hb : IsCSR n bfo bhead) (hfb : ∀ y ∈ fhead, rd bottom y = some false)
    (hbb : ∀ y ∈ bhead, rd bottom y = some false)
    (hup : ∀ x y, HeadOf ffo fhead x y ∨ HeadOf bfo bhead x y → ord x < ord y)
    {L P : List Nat} {m : Nat → Option Nat} {s : CacheState} (hs : CS n ord L P m s)
    (hp : CP (fun x y => HeadOf ffo fhead x y ∨ HeadOf bfo bhead x y) ord L P m) (hne : s.queue.empty ≠ true) :
    ∃ s' v m', cacheStep bottom rank ffo fhead bfo bhead s = some s' ∧ CS n ord L (P ++ [v]) m' s' ∧
      CP (fun x y => HeadOf ffo fhead x y ∨ HeadOf bfo bhead x y) ord L (P ++ [v]) m' ∧
      (∀ x k, m' x = some k → m x = some k ∨ ∃ a, HeadOf ffo fhead a x ∨ HeadOf bfo bhead a x) ∧
      (m v).isSome = true ∧ ∀ x, (m x).isSome = true → x = v ∨ (m' x).isSome = true := by
  have hex : ∃ id, m id ≠ none := by
    by_contra hc
    push Not at hc
    exact hne (hs.rep.empty_iff.2 hc)
  obtain ⟨q', e, e1, hme, hmin, hq⟩ := hs.rep.pop hex
  obtain ⟨hk, hv⟩ := hs.key e.id e.key hme
  have hdj := hs.disj e.id (by rw [hme]; rfl)
  have hnot : e.id ∉ P ++ L := by rw [List.mem_append]; rintro (h | h); exact hdj.1 h; exact hdj.2 h
  have hlen : (P ++ L).length < n := by
    have hsub : (e.id :: (P ++ L)) ⊆ List.range n := by
      intro x hx
      rcases List.mem_cons.1 hx with rfl | hx
      · exact List.mem_range.2 hv
      · exact List.mem_range.2 (hs.lt x hx)
    have := ((List.nodup_cons.2 ⟨hnot, hs.nodup⟩).subperm hsub).length_le
    simp at this ⊢; omega
  rw [List.length_append] at hlen
  have hfin := hs.fin
  have hf0 : s.fin ≠ 0 := by omega
  have hfl : s.fin - 1 < s.newOrder.length := by rw [hs.len]; omega
  have hdrop : (s.newOrder.set (s.fin - 1) e.id).drop (s.fin - 1) = (P ++ [e.id]).reverse ++ L := by
    rw [List.drop_eq_getElem_cons (by simpa using hfl), List.getElem_set_self,
      show s.fin - 1 + 1 = s.fin by omega, List.drop_set_of_lt (by omega), hs.drop]
    simp
  have hs1 : CS n ord L (P ++ [e.id]) (fun id => if id = e.id then none else m id)
      { s with queue := q', newOrder := s.newOrder.set (s.fin - 1) e.id, fin := s.fin - 1 } := by
    refine ⟨by simp [hs.len], hdrop, by simp; omega, hq, ?_, hs.isLen, ?_, ?_, ?_, ?_⟩
    · intro x k hx
      by_cases hxe : x = e.id
      · rw [if_pos hxe] at hx; cases hx
      · rw [if_neg hxe] at hx; exact hs.key x k hx
    · intro x hx
      simp only
      rw [hs.isIn x hx, List.mem_append, List.mem_singleton]
      by_cases hxe : x = e.id
      · subst hxe; simp [hme]
      · simp [hxe]
    · intro x hx
      by_cases hxe : x = e.id
      · rw [if_pos hxe] at hx; cases hx
      · rw [if_neg hxe] at hx
        obtain ⟨h1, h2⟩ := hs.disj x hx
        exact ⟨by simp [h1, hxe], h2⟩
    · rw [List.append_assoc, List.singleton_append]
      have hperm : (P ++ e.id :: L).Perm (e.id :: (P ++ L)) := List.perm_middle
      rw [hperm.nodup_iff]
      exact List.nodup_cons.2 ⟨hnot, hs.nodup⟩
    · intro x hx
      rw [List.append_assoc, List.singleton_append, List.mem_append, List.mem_cons] at hx
      rcases hx with hx | rfl | hx
      · exact hs.lt x (by simp [hx])
      · exact hv
      · exact hs.lt x (by simp [hx])
  obtain ⟨s2, m2, e2, hs2, hx2, hh2⟩ := onHeads_spec (bottom := bottom) hr hf hfb hs1 hv
  obtain ⟨s3, m3, e3, hs3, hx3, hh3⟩ := onHeads_spec (bottom := bottom) hr hb hbb hs2 hv
  refine ⟨s3, e.id, m3, ?_, hs3, ⟨?_, ?_, ?_⟩, ?_, by rw [hme]; rfl, ?_⟩
  · unfold cacheStep
    simp only [e1, hf0, ne_eq, not_false_eq_true, decide_true, check_true, wr_lt hfl, Option.bind_eq_bind, Option.bind_some,
      e2, e3]
  · rw [List.pairwise_append]
    refine ⟨hp.asc, by simp, ?_⟩
    intro a ha b hb
    rw [List.mem_singleton] at hb
    subst hb
    rw [← hk]
    exact hp.low a ha e.id e.key hme
  · -- all keys are at least the popped one
    have hge : ∀ y k, m3 y = some k → e.key ≤ k := by
      intro y k h3
      rcases hx3.2 y k h3 with h3 | ⟨hky, h3⟩
      · rcases hx2.2 y k h3 with h3 | ⟨hky, h3⟩
        · simp only at h3
          by_cases hye : y = e.id
          · rw [if_pos hye] at h3; cases h3
          · rw [if_neg hye] at h3; exact hmin y k h3
        · have := hup _ _ (Or.inl h3); omega
      · have := hup _ _ (Or.inr h3); omega
    intro x hx y k h3
    have := hge y k h3
    rw [List.mem_append, List.mem_singleton] at hx
    rcases hx with hx | rfl
    · have := hp.low x hx e.id e.key hme; omega
    · omega
  · intro x hx y hxy
    rw [List.mem_append, List.mem_singleton] at hx
    rcases hx with hx | rfl
    · refine hx3.keep (hx2.keep ?_)
      rcases hp.closed x hx y hxy with h | h | h
      · exact Or.inl (by simp [h])
      · exact Or.inr (Or.inl h)
      · by_cases hye : y = e.id
        · exact Or.inl (by simp [hye])
        · exact Or.inr (Or.inr (by simp [hye, h]))
    · rcases hxy with hxy | hxy
      · exact hx3.keep (hh2 y hxy)
      · exact hh3 y hxy
  · intro x k h3
    rcases hx3.2 x k h3 with h3 | ⟨_, h3⟩
    · rcases hx2.2 x k h3 with h3 | ⟨_, h3⟩
      · simp only at h3
        by_cases hxe : x = e.id
        · rw [if_pos hxe] at h3; cases h3
        · rw [if_neg hxe] at h3; exact Or.inl h3
      · exact Or.inr ⟨_, Or.inl h3⟩
    · exact Or.inr ⟨_, Or.inr h3⟩
  · intro x hx
    by_cases hxe : x = e.id
    · exact Or.inl hxe
    · right
      have : ((fun id => if id = e.id then none else m id) x).isSome = true := by simp [hxe, hx]
      rw [hx3.1 x (by rw [hx2.1 x this]; exact this), hx2.1 x this]; exact this

theorem cacheLoop_spec (hr : ∀ x, x < n → rd rank x = some (ord x)) {ffo fhead bfo bhead : List Nat}
    (hf : IsCSR n ffo fhead) (hb : IsCSR n bfo bhead) (hfb : ∀ y ∈ fhead, rd bottom y = some false)
    (hbb : ∀ y ∈ bhead, rd bottom y = some false)
    (hup : ∀ x y, HeadOf ffo fhead x y ∨ HeadOf bfo bhead x y → ord x < ord y) (root : Nat) {L : List Nat} :
    ∀ (fuel : Nat) (P : List Nat) (m : Nat → Option Nat) (s : CacheState), CS n ord L P m s →
    CP (fun x y => HeadOf ffo fhead x y ∨ HeadOf bfo bhead x y) ord L P m → n ≤ fuel + P.length →
    (root ∈ P ∨ (m root).isSome = true) →
    (∀ x, x ∈ P ∨ (m x).isSome = true → x = root ∨ ∃ a, HeadOf ffo fhead a x ∨ HeadOf bfo bhead a x) →
    ∃ s' P', cacheLoop bottom rank ffo fhead bfo bhead fuel s = some s' ∧ CS n ord L P' (fun _ => none) s' ∧
      CP (fun x y => HeadOf ffo fhead x y ∨ HeadOf bfo bhead x y) ord L P' (fun _ => none) ∧ root ∈ P' ∧
      ∀ x ∈ P', x = root ∨ ∃ a, HeadOf ffo fhead a x ∨ HeadOf bfo bhead a x
  | fuel, P, m, s, hs, hp, hn, hroot, horig => by
    unfold cacheLoop
    by_cases he : s.queue.empty = true
    · rw [if_pos he]
      have hm : m = fun _ => none := funext (hs.rep.empty_iff.1 he)
      subst hm
      refine ⟨s, P, rfl, hs, hp, ?_, fun x hx => horig x (Or.inl hx)⟩
      rcases hroot with h | h
      · exact h
      · cases h
    · rw [if_neg he]
      obtain ⟨s1, v, m1, e1, hs1, hp1, hor, hv, hkeep⟩ := cacheStep_spec (bottom := bottom) hr hf hb hfb hbb hup hs hp he
      have hlen : P.length < n := by have := hs1.fin; simp at this; omega
      cases fuel with
      | zero => omega
      | succ fuel =>
        simp only [e1, Option.bind_eq_bind, Option.bind_some]
        refine cacheLoop_spec hr hf hb hfb hbb hup root fuel _ m1 s1 hs1 hp1 (by simp; omega) ?_ ?_
        · rcases hroot with h | h
          · exact Or.inl (by simp [h])
          · rcases hkeep root h with h | h
            · exact Or.inl (by simp [h])
            · exact Or.inr h
        · rintro x (hx | hx)
          · rw [List.mem_append, List.mem_singleton] at hx
            rcases hx with hx | rfl
            · exact horig x (Or.inl hx)
            · exact horig x (Or.inr hv)
          · obtain ⟨k, hk⟩ := Option.isSome_iff_exists.1 hx
            rcases hor x k hk with h | h
            · exact horig x (Or.inr (by rw [h]; rfl))
            · exact Or.inr h

/-- Between two roots. -/
structure RootInv (n : Nat) (E : Nat → Nat → Prop) (ord : Nat → Nat) (bottom : List Bool) (r : Nat)
    (s : CacheState) : Prop where
  ex : ∃ L, CS n ord L [] (fun _ => none) s ∧ L.Pairwise (fun a b => ¬ E b a) ∧
    (∀ x ∈ L, ∀ y, E x y → y ∈ L) ∧ (∀ x, x < r → rd bottom x = some true → x ∈ L) ∧
    ∀ x ∈ L, x < r ∨ rd bottom x = some false

theorem reverseRange_drop {v P L : List Nat} {lo hi : Nat} (hlo : hi = lo + P.length) (h : v.drop lo = P.reverse ++ L)
    (hl : hi ≤ v.length) :
    (reverseRange v lo hi).drop lo = P ++ L ∧ (reverseRange v lo hi).length = v.length := by
  unfold reverseRange
  have h1 : (v.take hi).drop lo = P.reverse := by
    rw [List.drop_take, h, hlo, Nat.add_sub_cancel_left, List.take_left' (by simp)]
  have h2 : v.drop hi = L := by
    rw [hlo, ← List.drop_drop, h, List.drop_left' (by simp)]
  rw [h1, h2, List.reverse_reverse, List.append_assoc, List.drop_left' (by rw [List.length_take]; omega)]
  refine ⟨rfl, ?_⟩
  have h3 : (v.drop lo).length = P.length + L.length := by rw [h]; simp
  rw [List.length_drop] at h3
  simp; omega

theorem cacheRoot_spec (hr : ∀ x, x < n → rd rank x = some (ord x)) {ffo fhead bfo bhead : List Nat}
    (hf : IsCSR n ffo fhead) (hb : IsCSR n bfo bhead) (hfb : ∀ y ∈ fhead, rd bottom y = some false)
    (hbb : ∀ y ∈ bhead, rd bottom y = some false) (hbl : bottom.length = n)
    (hup : ∀ x y, HeadOf ffo fhead x y ∨ HeadOf bfo bhead x y → ord x < ord y) {r : Nat} (hrn : r < n)
    {s : CacheState} (hs : RootInv n (fun x y => HeadOf ffo fhead x y ∨ HeadOf bfo bhead x y) ord bottom r s) :
    ∃ s', cacheRoot n bottom rank ffo fhead bfo bhead s r = some s' ∧
      RootInv n (fun x y => HeadOf ffo fhead x y ∨ HeadOf bfo bhead x y) ord bottom (r + 1) s' := by
  obtain ⟨L, hcs, hpw, hcl, hbot, hsub⟩ := hs.ex
  obtain ⟨b, hbr⟩ := rd_isSome (v := bottom) (i := r) (by omega)
  unfold cacheRoot
  simp only [hbr, Option.bind_eq_bind, Option.bind_some]
  cases b with
  | false =>
    simp only [Bool.false_eq_true, if_false]
    refine ⟨s, rfl, L, hcs, hpw, hcl, ?_, fun x hx => (hsub x hx).imp (by omega) id⟩
    intro x hx hxb
    by_cases hxr : x = r
    · subst hxr; rw [hbr] at hxb; cases hxb
    · exact hbot x (by omega) hxb
  | true =>
    have hrL : r ∉ L := by
      intro hm
      rcases hsub r hm with h | h
      · omega
      · rw [hbr] at h; cases h
    obtain ⟨q', eq, hq⟩ := hcs.rep.push (p := ⟨r, ord r⟩) hrn rfl
    have hil : r < s.isIn.length := by rw [hcs.isLen]; exact hrn
    have hif : rd s.isIn r = some false := by
      obtain ⟨b, hb⟩ := rd_isSome hil
      cases b with
      | false => exact hb
      | true =>
        have := (hcs.isIn r hrn).1 hb
        simp [hrL] at this
    simp only [if_true, hr r hrn, eq, hif, Bool.not_false, check_true, wr_lt hil, Option.bind_some]
    have hs1 : CS n ord L [] (fun id => if id = r then some (ord r) else none)
        { s with queue := q', isIn := s.isIn.set r true } := by
      refine ⟨hcs.len, hcs.drop, hcs.fin, hq, ?_, by simp [hcs.isLen], ?_, ?_, hcs.nodup, hcs.lt⟩
      · intro x k hk
        by_cases hxr : x = r
        · rw [if_pos hxr] at hk; cases hk; rw [hxr]; exact ⟨rfl, hrn⟩
        · rw [if_neg hxr] at hk; cases hk
      · intro x hx
        simp only
        rw [rd_set hil]
        by_cases hxr : x = r
        · simp [hxr]
        · rw [if_neg hxr, if_neg hxr]; exact hcs.isIn x hx
      · intro x hx
        by_cases hxr : x = r
        · rw [hxr]; exact ⟨by simp, hrL⟩
        · rw [if_neg hxr] at hx; cases hx
    obtain ⟨s', P, es, hs', hp', hrP, hor⟩ := cacheLoop_spec (bottom := bottom) hr hf hb hfb hbb hup r n [] _ _ hs1
      ⟨List.Pairwise.nil, by simp, by simp⟩ (by omega) (Or.inr (by simp)) (by
        rintro x (hx | hx)
        · cases hx
        · by_cases hxr : x = r
          · exact Or.inl hxr
          · simp [hxr] at hx)
    rw [es]
    simp only [Option.bind_some]
    have hfin' := hs'.fin
    have hfin := hcs.fin
    rw [List.length_nil] at hfin
    obtain ⟨hd, hl⟩ := reverseRange_drop (v := s'.newOrder) (P := P) (L := L) (lo := s'.fin) (hi := s.fin)
      (by omega) hs'.drop (by rw [hs'.len]; omega)
    refine ⟨_, rfl, P ++ L, ⟨by simp only; rw [hl]; exact hs'.len, by simp only; rw [hd]; rfl, by simp; omega, hs'.rep,
      fun x k hk => (by cases hk), hs'.isLen, ?_, fun x hx => (by cases hx), hs'.nodup, hs'.lt⟩, ?_, ?_, ?_, ?_⟩
    · intro x hx
      simp only
      rw [hs'.isIn x hx, List.mem_append]
      simp
    · rw [List.pairwise_append]
      refine ⟨hp'.asc.imp ?_, hpw, ?_⟩
      · intro a b hab he
        have := hup _ _ he; omega
      · intro a ha b hb he
        have := hcl b hb a he
        have hnd := hs'.nodup
        rw [List.nodup_append] at hnd
        exact hnd.2.2 a ha a this rfl
    · intro x hx y hxy
      rw [List.mem_append] at hx ⊢
      rcases hx with hx | hx
      · rcases hp'.closed x hx y hxy with h | h | h
        · exact Or.inl h
        · exact Or.inr h
        · cases h
      · exact Or.inr (hcl x hx y hxy)
    · intro x hx hxb
      rw [List.mem_append]
      by_cases hxr : x = r
      · rw [hxr]; exact Or.inl hrP
      · exact Or.inr (hbot x (by omega) hxb)
    · intro x hx
      rw [List.mem_append] at hx
      rcases hx with hx | hx
      · rcases hor x hx with rfl | ⟨a, ⟨i, _, h⟩ | ⟨i, _, h⟩⟩
        · left; omega
        · exact Or.inr (hfb x (List.mem_of_getElem? h))
        · exact Or.inr (hbb x (List.mem_of_getElem? h))
      · exact (hsub x hx).imp (by omega) id

/-- Every arc of an adjacency array belongs to a node. -/
theorem _root_.Spec.IsCSR.owner {fo head : List Nat} (h : IsCSR n fo head) {a : Nat} (ha : a < head.length) :
    ∃ x, x < n ∧ OutArc fo x a := by
  have key : ∀ k, k ≤ n → ∀ e : Nat, fo[k]? = some e → a < e → ∃ x, x < k ∧ OutArc fo x a := by
    intro k
    induction k with
    | zero =>
      intro _ e he hae
      rw [h.first] at he; cases he; omega
    | succ k ih =>
      intro hk e he hae
      obtain ⟨b, hb⟩ := rd_isSome (v := fo) (i := k) (by rw [h.length]; omega)
      by_cases hab : a < b
      · obtain ⟨x, hx, ho⟩ := ih (by omega) b hb hab
        exact ⟨x, by omega, ho⟩
      · exact ⟨k, by omega, b, e, hb, he, by omega, hae⟩
  exact key n (Nat.le_refl _) _ h.last ha

theorem optimizeOrder_spec (hn : n ≤ MinIDQueue.maxIds) (hrl : rank.length = n)
    (hr : ∀ x, x < n → rd rank x = some (ord x)) {ffo fhead bfo bhead : List Nat}
    (hf : IsCSR n ffo fhead) (hb : IsCSR n bfo bhead)
    (hup : ∀ x y, HeadOf ffo fhead x y ∨ HeadOf bfo bhead x y → ord x < ord y) :
    ∃ rank' order', optimizeOrderForCache rank ffo fhead bfo bhead = some (rank', order') ∧
      IsPerm order' ∧ order'.length = n ∧ IsPerm rank' ∧ rank'.length = n ∧
      (∀ i x, i < n → (rd rank' x = some i ↔ rd order' i = some x)) ∧
      ∀ x y i j, HeadOf ffo fhead x y ∨ HeadOf bfo bhead x y → rd rank' x = some i → rd rank' y = some j → i < j := by
  obtain ⟨b1, e1, hl1, h1⟩ := clearHeads_spec fhead (List.replicate n true) (by
    intro h hh
    obtain ⟨i, hi⟩ := List.getElem?_of_mem hh
    simpa using hf.head_lt i h hi)
  obtain ⟨b2, e2, hl2, h2⟩ := clearHeads_spec bhead b1 (by
    intro h hh
    obtain ⟨i, hi⟩ := List.getElem?_of_mem hh
    rw [hl1]; simpa using hb.head_lt i h hi)
  have hbl : b2.length = n := by rw [hl2, hl1]; simp
  have hff : ∀ y ∈ fhead, rd b2 y = some false := by
    intro y hy
    rw [h2, h1, if_pos hy]; simp
  have hbb : ∀ y ∈ bhead, rd b2 y = some false := by
    intro y hy
    rw [h2, if_pos hy]
  have h0 : RootInv n (fun x y => HeadOf ffo fhead x y ∨ HeadOf bfo bhead x y) ord b2 0
      ⟨List.replicate n 0, n, List.replicate n false, MinIDQueue.new n⟩ := by
    refine ⟨[], ⟨by simp, by simp, by simp, MinIDQueue.rep_new hn, fun x k h => (by cases h), by simp, ?_,
      fun x h => (by cases h), by simp, by simp⟩, by simp, by simp, fun x hx => absurd hx (Nat.not_lt_zero x), by simp⟩
    intro x hx
    rw [rd_replicate hx]; simp
  obtain ⟨s, es, hs⟩ := forRange_inv (f := cacheRoot n b2 rank ffo fhead bfo bhead) (lo := 0) (hi := n)
    (fun r s => RootInv n (fun x y => HeadOf ffo fhead x y ∨ HeadOf bfo bhead x y) ord b2 r s) (Nat.zero_le n) h0
    (fun r s _ hrn hs => cacheRoot_spec hr hf hb hff hbb hbl hup hrn hs)
  obtain ⟨L, hcs, hpw, hcl, hbot, hsub⟩ := hs.ex
  have hall : ∀ k x, x < n → ord x = k → x ∈ L := by
    intro k
    induction k using Nat.strongRecOn with
    | ind k ih =>
      intro x hx hk
      by_cases hfx : x ∈ fhead
      · obtain ⟨a, ha⟩ := List.getElem?_of_mem hfx
        obtain ⟨y, hy, ho⟩ := hf.owner (rd_some_lt ha)
        have hE : HeadOf ffo fhead y x ∨ HeadOf bfo bhead y x := Or.inl ⟨a, ho, ha⟩
        have := hup y x hE
        exact hcl y (ih (ord y) (by omega) y hy rfl) x hE
      · by_cases hbx : x ∈ bhead
        · obtain ⟨a, ha⟩ := List.getElem?_of_mem hbx
          obtain ⟨y, hy, ho⟩ := hb.owner (rd_some_lt ha)
          have hE : HeadOf ffo fhead y x ∨ HeadOf bfo bhead y x := Or.inr ⟨a, ho, ha⟩
          have := hup y x hE
          exact hcl y (ih (ord y) (by omega) y hy rfl) x hE
        · apply hbot x hx
          rw [h2, if_neg hbx, h1, if_neg hfx, rd_replicate hx]
  have hLlen : L.length = n := by
    have hsub : List.range n ⊆ L := fun x hx => hall _ x (List.mem_range.1 hx) rfl
    have h3 := (List.nodup_range.subperm hsub).length_le
    have h4 := hcs.fin
    rw [List.length_range] at h3
    rw [List.length_nil] at h4
    omega
  have hfin : s.fin = 0 := by have := hcs.fin; rw [List.length_nil] at this; omega
  have hLeq : s.newOrder = L := by
    have := hcs.drop
    rw [hfin] at this
    simpa using this
  have hperm : IsPerm s.newOrder := by
    rw [hLeq]
    exact ⟨fun x hx => by rw [hLlen]; exact hcs.lt x hx, hcs.nodup⟩
  obtain ⟨rank', er, hrl', hrp, hinv⟩ := invertPermutation_spec hperm
  refine ⟨rank', s.newOrder, ?_, hperm, hcs.len, hrp, by rw [hrl', hcs.len], ?_, ?_⟩
  · unfold optimizeOrderForCache
    simp only [hrl, e1, e2, es, hfin, decide_true, check_true, checkPerm_of hperm, er, Option.bind_eq_bind,
      Option.bind_some]
  · intro i x hi
    exact hinv i x (by rw [hcs.len]; exact hi)
  · intro x y i j hE hi hj
    have hin : i < s.newOrder.length := by rw [← hrl']; exact hrp.lt i (List.mem_of_getElem? hi)
    have hjn : j < s.newOrder.length := by rw [← hrl']; exact hrp.lt j (List.mem_of_getElem? hj)
    have hix := (hinv i x hin).1 hi
    have hjy := (hinv j y hjn).1 hj
    rw [hLeq] at hix hjy
    rcases Nat.lt_trichotomy i j with h | h | h
    · exact h
    · subst h
      rw [hix] at hjy
      cases hjy
      have := hup x x hE; omega
    · exfalso
      obtain ⟨hi', ei⟩ := rd_eq_some.1 hix
      obtain ⟨hj', ej⟩ := rd_eq_some.1 hjy
      have := List.pairwise_iff_getElem.1 hpw j i hj' hi' h
      rw [ei, ej] at this
      exact this hE

end RK
