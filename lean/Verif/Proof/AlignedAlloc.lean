import Verif.Spec.AlignedAlloc
import Verif.Proof.History
import Mathlib.Data.List.Pairwise
/-! Helper lemmas: aligned buffers. -/
namespace RK
open Spec

/-- What the memory knows about a buffer. -/
structure GoodBuffer (s : ByteHeap) (u : Buffer) : Prop where
  base0 : u.base ≠ 0
  top : u.base + u.len < u64
  lo : u.base < u.ptr
  shift : u.ptr - u.base < 256
  hi : u.ptr + u.size ≤ u.base + u.len
  mark : s.mem (u.ptr - 1) = some (u.ptr - u.base)
  bytes : ∀ x b, x < u.size → u.content x = some b → s.mem (u.ptr + x) = some b

/-- The memory holds these buffers and nothing else. -/
structure HoldsBuffers (s : ByteHeap) (S : List Buffer) : Prop where
  live : s.live = S.map fun u => (u.base, u.len)
  good : ∀ u ∈ S, GoodBuffer s u
  apart : S.Pairwise fun u v => Apart u.base u.len v.base v.len

theorem HoldsBuffers.same {s : ByteHeap} {S : List Buffer} (h : HoldsBuffers s S) {u v : Buffer} (hu : u ∈ S) (hv : v ∈ S) {x : Nat}
    (h1 : u.base ≤ x) (h2 : x < u.base + u.len) (h3 : v.base ≤ x) (h4 : x < v.base + v.len) : u = v := by
  by_contra hne
  have : Std.Symm fun u v : Buffer => Apart u.base u.len v.base v.len := ⟨fun _ _ h => Or.symm h⟩
  have := List.Pairwise.forall h.apart hu hv hne
  unfold Apart at this
  omega

theorem HoldsBuffers.within {s : ByteHeap} {S : List Buffer} (h : HoldsBuffers s S) {u : Buffer} (hu : u ∈ S) {x : Nat}
    (h1 : u.base ≤ x) (h2 : x < u.base + u.len) : s.within x = true := by
  unfold ByteHeap.within
  rw [h.live, List.any_eq_true]
  exact ⟨(u.base, u.len), List.mem_map.2 ⟨u, hu, rfl⟩, by simp [h1, h2]⟩

theorem HoldsBuffers.samePtr {s : ByteHeap} {S : List Buffer} (h : HoldsBuffers s S) {u v : Buffer} (hu : u ∈ S) (hv : v ∈ S) (e : u.ptr = v.ptr) : u = v := by
  have gu := h.good u hu
  have gv := h.good v hv
  have := gu.lo; have := gu.hi; have := gv.lo; have := gv.hi
  exact h.same hu hv (x := u.ptr - 1) (by omega) (by omega) (by omega) (by omega)

theorem mod_back {U q k : Nat} (h : k ≤ q) (hq : q - k < U) : (q + U - k) % U = q - k := by
  rw [show q + U - k = (q - k) + U by omega, Nat.add_mod_right, Nat.mod_eq_of_lt hq]

/-- `((p + a) / a) * a` is the next multiple of `a` behind `p`. -/
theorem next_multiple {p a : Nat} (ha : 0 < a) : (p + a) / a * a % a = 0 ∧ p < (p + a) / a * a ∧ (p + a) / a * a ≤ p + a := by
  have h1 := Nat.div_add_mod (p + a) a
  have h2 := Nat.mod_lt (p + a) ha
  rw [Nat.mul_comm] at h1
  refine ⟨Nat.mul_mod_left _ _, ?_, ?_⟩ <;> omega

theorem alloc_spec {s : ByteHeap} {S : List Buffer} (h : HoldsBuffers s S) {a n p : Nat} (ha : 0 < a) (ha' : a < 256) (hp : p ≠ 0) (ht : p + (n + a) < u64)
    (hd : ∀ b ∈ S, Apart p (n + a) b.base b.len) :
    ∃ s' q, alignedAlloc s a n p = some (s', q) ∧ q ≠ 0 ∧ q % a = 0 ∧ (∀ b ∈ S, q ≠ b.ptr ∧ Apart q n b.ptr b.size) ∧
      HoldsBuffers s' (⟨p, n + a, q, n, fun _ => none⟩ :: S) := by
  obtain ⟨q, hq⟩ : ∃ q, q = (p + a) / a * a := ⟨_, rfl⟩
  obtain ⟨m1, m2, m3⟩ := next_multiple (p := p) ha
  rw [← hq] at m1 m2 m3
  have e1 : (n + a) % u64 = n + a := Nat.mod_eq_of_lt (by omega)
  have e2 : (p + a) % u64 = p + a := Nat.mod_eq_of_lt (by omega)
  have e3 : q % u64 = q := Nat.mod_eq_of_lt (by omega)
  have e4 : (q + u64 - 1) % u64 = q - 1 := mod_back (by omega) (by omega)
  have e5 : (q + u64 - p) % u64 = q - p := mod_back (by omega) (by omega)
  have hw : (⟨(p, n + a) :: s.live, fun y => if p ≤ y ∧ y < p + (n + a) then none else s.mem y⟩ : ByteHeap).within (q - 1) = true := by
    unfold ByteHeap.within
    rw [List.any_cons, Bool.or_eq_true]
    left
    rw [Bool.and_eq_true, decide_eq_true_eq, decide_eq_true_eq]
    show p ≤ q - 1 ∧ q - 1 < p + (n + a)
    omega
  refine ⟨⟨(p, n + a) :: s.live, fun y => if y = q - 1 then some ((q - p) % 256) else if p ≤ y ∧ y < p + (n + a) then none else s.mem y⟩, q, ?_, by omega, m1, ?_, ?_⟩
  · unfold alignedAlloc ByteHeap.malloc
    simp only [if_neg hp, e1, e2, ← hq, e3, e4, e5]
    unfold ByteHeap.store
    simp only [hw, check_true, Option.bind_eq_bind, Option.bind_some, decide_eq_true (show a ≠ 0 by omega)]
  · intro b hb
    have g := h.good b hb
    have := hd b hb
    have := g.lo; have := g.hi
    unfold Apart at *
    omega
  · refine ⟨?_, ?_, ?_⟩
    · rw [List.map_cons, ← h.live]
    · intro u hu
      rcases List.mem_cons.1 hu with rfl | hu
      · refine ⟨hp, ht, m2, ?_, ?_, ?_, fun _ _ _ e => (by cases e)⟩
        · show q - p < 256
          omega
        · show q + n ≤ p + (n + a)
          omega
        · show (if q - 1 = q - 1 then some ((q - p) % 256) else _) = some (q - p)
          rw [if_pos rfl, Nat.mod_eq_of_lt (by omega)]
      · have g := h.good u hu
        have hdu := hd u hu
        have := g.lo; have := g.hi
        unfold Apart at hdu
        have out : ∀ y, u.base ≤ y → y < u.base + u.len →
            (if y = q - 1 then some ((q - p) % 256) else if p ≤ y ∧ y < p + (n + a) then none else s.mem y) = s.mem y := by
          intro y h1 h2
          rw [if_neg (by omega), if_neg (by omega)]
        refine ⟨g.base0, g.top, g.lo, g.shift, g.hi, ?_, ?_⟩
        · exact (out _ (by omega) (by omega)).trans g.mark
        · intro x b hx hb
          exact (out _ (by omega) (by omega)).trans (g.bytes x b hx hb)
    · exact List.pairwise_cons.2 ⟨hd, h.apart⟩

theorem load_eq {s : ByteHeap} {x k : Nat} (hw : s.within x = true) (hm : s.mem x = some k) : s.load x = some k := by
  unfold ByteHeap.load
  rw [hw, hm]
  rfl

theorem free_eq {s : ByteHeap} {p : Nat} (h : p ≠ 0) (hany : (s.live.any fun b => b.1 == p) = true) :
    s.free p = some ⟨s.live.filter fun b => b.1 != p, s.mem⟩ := by
  unfold ByteHeap.free
  rw [if_neg h, hany]
  rfl

theorem alignedFree_eq {s : ByteHeap} {q x k base : Nat} (h0 : q ≠ 0) (e1 : (q + u64 - 1) % u64 = x) (hw : s.within x = true) (hm : s.mem x = some k)
    (e2 : (q + u64 - k) % u64 = base) (hb : base ≠ 0) (hany : (s.live.any fun b => b.1 == base) = true) :
    alignedFree s q = some ⟨s.live.filter fun b => b.1 != base, s.mem⟩ := by
  unfold alignedFree
  rw [if_pos h0, e1, load_eq hw hm, Option.bind_eq_bind, Option.bind_some, e2, free_eq hb hany]

theorem free_spec {s : ByteHeap} {S : List Buffer} (h : HoldsBuffers s S) {q : Nat} (hq : q = 0 ∨ ∃ b ∈ S, b.ptr = q) :
    ∃ s', alignedFree s q = some s' ∧ HoldsBuffers s' (S.filter fun b => b.ptr != q) := by
  by_cases h0 : q = 0
  · subst h0
    refine ⟨s, by unfold alignedFree; rw [if_neg (fun h => h rfl)], ?_⟩
    rw [List.filter_eq_self.2]
    · exact h
    · intro u hu
      have := (h.good u hu).lo
      simp only [bne_iff_ne, ne_eq]
      omega
  · obtain ⟨u, hu, rfl⟩ := hq.resolve_left h0
    have g := h.good u hu
    have := g.lo; have := g.hi; have := g.top; have := g.shift
    have e1 : (u.ptr + u64 - 1) % u64 = u.ptr - 1 := mod_back (by omega) (by omega)
    have e2 : (u.ptr + u64 - (u.ptr - u.base)) % u64 = u.base := (mod_back (by omega) (by omega)).trans (by omega)
    have hany : (s.live.any fun b => b.1 == u.base) = true := by
      rw [h.live, List.any_eq_true]
      exact ⟨(u.base, u.len), List.mem_map.2 ⟨u, hu, rfl⟩, by simp⟩
    refine ⟨⟨s.live.filter fun b => b.1 != u.base, s.mem⟩, ?_, ?_, ?_, ?_⟩
    · exact alignedFree_eq h0 e1 (h.within hu (x := u.ptr - 1) (by omega) (by omega)) g.mark e2 g.base0 hany
    · show s.live.filter _ = _
      rw [h.live, List.filter_map]
      refine congrArg (List.map _) (List.filter_congr ?_)
      intro v hv
      have gv := h.good v hv
      have := gv.lo; have := gv.hi
      show (v.base != u.base) = (v.ptr != u.ptr)
      by_cases e : v = u
      · rw [e]; simp
      · have h1 : v.ptr ≠ u.ptr := fun e' => e (h.samePtr hv hu e')
        have h2 : v.base ≠ u.base := fun e' => e (h.same hv hu (x := u.base) (by omega) (by omega) (by omega) (by omega))
        rw [bne_iff_ne.2 h1, bne_iff_ne.2 h2]
    · intro v hv
      have g := h.good v (List.mem_filter.1 hv).1
      exact ⟨g.base0, g.top, g.lo, g.shift, g.hi, g.mark, g.bytes⟩
    · exact h.apart.sublist List.filter_sublist

theorem write_spec {s : ByteHeap} {S : List Buffer} (h : HoldsBuffers s S) {q x b : Nat} (hb : b < 256) (hu : ∃ u ∈ S, u.ptr = q ∧ x < u.size) :
    ∃ s', s.store (q + x) b = some s' ∧
      HoldsBuffers s' (S.map fun u => if u.ptr = q then { u with content := fun y => if y = x then some b else u.content y } else u) := by
  obtain ⟨u, hu, rfl, hx⟩ := hu
  have g := h.good u hu
  have := g.lo; have := g.hi
  refine ⟨⟨s.live, fun y => if y = u.ptr + x then some (b % 256) else s.mem y⟩, ?_, ?_, ?_, ?_⟩
  · unfold ByteHeap.store
    simp only [h.within hu (x := u.ptr + x) (by omega) (by omega), check_true, Option.bind_eq_bind, Option.bind_some]
  · show s.live = _
    rw [h.live, List.map_map]
    apply List.map_congr_left
    intro v _
    show _ = _
    simp only [Function.comp]
    split <;> rfl
  · intro w hw
    obtain ⟨v, hv, rfl⟩ := List.mem_map.1 hw
    have gv := h.good v hv
    have := gv.lo; have := gv.hi
    by_cases e : v.ptr = u.ptr
    · have : v = u := h.samePtr hv hu e
      subst this
      rw [if_pos rfl]
      refine ⟨g.base0, g.top, g.lo, g.shift, g.hi, ?_, ?_⟩
      · show (if v.ptr - 1 = v.ptr + x then _ else s.mem (v.ptr - 1)) = _
        rw [if_neg (by omega)]
        exact g.mark
      · intro y c hy hc
        change (if y = x then some b else v.content y) = some c at hc
        show (if v.ptr + y = v.ptr + x then some (b % 256) else s.mem (v.ptr + y)) = _
        by_cases hyx : y = x
        · rw [if_pos hyx] at hc
          rw [if_pos (by omega), Nat.mod_eq_of_lt hb]
          exact hc
        · rw [if_neg hyx] at hc
          rw [if_neg (by omega)]
          exact g.bytes y c hy hc
    · rw [if_neg e]
      have far : ∀ y, v.base ≤ y → y < v.base + v.len → y ≠ u.ptr + x := by
        rintro y h1 h2 rfl
        exact e (congrArg Buffer.ptr (h.same hv hu h1 h2 (by omega) (by omega)))
      refine ⟨gv.base0, gv.top, gv.lo, gv.shift, gv.hi, ?_, ?_⟩
      · show (if v.ptr - 1 = u.ptr + x then _ else s.mem (v.ptr - 1)) = _
        rw [if_neg (far _ (by omega) (by omega))]
        exact gv.mark
      · intro y c hy hc
        show (if v.ptr + y = u.ptr + x then _ else s.mem (v.ptr + y)) = _
        rw [if_neg (far _ (by omega) (by omega))]
        exact gv.bytes y c hy hc
  · rw [List.pairwise_map]
    refine h.apart.imp ?_
    intro v w hvw
    have e : ∀ v : Buffer, (if v.ptr = u.ptr then { v with content := fun y => if y = x then some b else v.content y } else v).base = v.base ∧
        (if v.ptr = u.ptr then { v with content := fun y => if y = x then some b else v.content y } else v).len = v.len := by
      intro v
      split <;> exact ⟨rfl, rfl⟩
    rw [(e v).1, (e v).2, (e w).1, (e w).2]
    exact hvw

theorem allocCall_spec {s : ByteHeap} {S : List Buffer} (h : HoldsBuffers s S) (op : AllocOp) (hp : AllocPre S op) :
    ∃ s' out S', allocCall s op = some (s', out) ∧ AllocStep S op out S' ∧ HoldsBuffers s' S' := by
  cases op with
  | alloc a n p =>
    obtain ⟨ha, ha', hp0, ht, hd⟩ := hp
    obtain ⟨s', q, e, h1, h2, h3, h4⟩ := alloc_spec h ha ha' hp0 ht hd
    exact ⟨s', .ptr q, _, by simp only [allocCall, e, Option.map_some], ⟨q, rfl, h1, h2, h3, rfl⟩, h4⟩
  | free q =>
    obtain ⟨s', e, h'⟩ := free_spec h hp
    exact ⟨s', .unit, _, by simp only [allocCall, e, Option.map_some], ⟨rfl, rfl⟩, h'⟩
  | write q x b =>
    obtain ⟨s', e, h'⟩ := write_spec h hp.1 hp.2
    exact ⟨s', .unit, _, by simp only [allocCall, e, Option.map_some], ⟨rfl, rfl⟩, h'⟩
  | read q x =>
    obtain ⟨u, hu, rfl, hx, hc⟩ := hp
    obtain ⟨b, hb⟩ := Option.ne_none_iff_exists'.1 hc
    have g := h.good u hu
    have := g.lo; have := g.hi
    refine ⟨s, .byte b, S, ?_, ⟨rfl, u, hu, b, rfl, hb, rfl⟩, h⟩
    simp only [allocCall, ByteHeap.load, h.within hu (x := u.ptr + x) (by omega) (by omega), check_true, Option.bind_eq_bind, Option.bind_some,
      g.bytes x b hx hb, Option.map_some]

end RK
