import Verif.Proof.ChBound
/-! Helper lemmas: with unlimited witness searches, shortcuts are simple paths. -/
namespace RK
open Spec WitnessSearch ChGraph

/-- Every walk from `x` to `y` can be replaced by one through `u` that is not longer. -/
def Via (A0 : ArcMap) (x u y : Nat) : Prop :=
  ∀ l, RWalk (mapR A0) x y l → ∃ l1 l2, RWalk (mapR A0) x u l1 ∧ RWalk (mapR A0) u y l2 ∧ l1 + l2 ≤ l

theorem Via.left {A0 : ArcMap} {x u z y : Nat} (h : Via A0 x z y) (hu : Via A0 x u z) : Via A0 x u y := by
  intro l hw
  obtain ⟨l1, l2, h1, h2, h3⟩ := h l hw
  obtain ⟨l3, l4, h4, h5, h6⟩ := hu l1 h1
  exact ⟨l3, l4 + l2, h4, h5.append h2, by omega⟩

theorem Via.right {A0 : ArcMap} {x u z y : Nat} (h : Via A0 x z y) (hu : Via A0 z u y) : Via A0 x u y := by
  intro l hw
  obtain ⟨l1, l2, h1, h2, h3⟩ := h l hw
  obtain ⟨l3, l4, h4, h5, h6⟩ := hu l2 h2
  exact ⟨l1 + l3, l4, h1.append h4, h5, by omega⟩

/-- Different nodes do not have distance 0 in both directions. -/
def NoNullCycle (A0 : ArcMap) : Prop := ∀ x y, RWalk (mapR A0) x y 0 → RWalk (mapR A0) y x 0 → x = y

theorem exists_least {Q : Nat → Nat → Nat → Prop} {x y l : Nat} (h : RWalk Q x y l) :
    ∃ d, RWalk Q x y d ∧ ∀ l, RWalk Q x y l → d ≤ l := by
  classical
  have hex : ∃ d, RWalk Q x y d := ⟨l, h⟩
  exact ⟨Nat.find hex, Nat.find_spec hex, fun l hl => Nat.find_min' hex hl⟩

/-- A node between `x` and `v` that is also between `v` and `y` is `v`, if `v` is between `x` and `y`. -/
theorem Via.meet {A0 : ArcMap} {x u v y l : Nat} (hn : NoNullCycle A0) (hw : RWalk (mapR A0) x y l) (h : Via A0 x v y)
    (h1 : Via A0 x u v) (h2 : Via A0 v u y) : u = v := by
  obtain ⟨d, hd, hmin⟩ := exists_least hw
  obtain ⟨l1, l2, w1, w2, hl⟩ := h d hd
  obtain ⟨a1, a2, p1, p2, hp⟩ := h1 l1 w1
  obtain ⟨b1, b2, q1, q2, hq⟩ := h2 l2 w2
  have := hmin _ (p1.append q2)
  have e1 : a2 = 0 := by omega
  have e2 : b1 = 0 := by omega
  subst e1; subst e2
  exact hn u v p2 q1

/-- Every arc is a simple path over contracted nodes; these are all between its ends. -/
structure SimplePaths (A0 : ArcMap) (n W : Nat) (C : List Nat) (A : ArcMap) : Prop where
  lt : ∀ x ∈ C, x < n
  core : ∀ x y i, A x y = some i → (x < n ∧ x ∉ C) ∧ y ∉ C
  back : ∀ x y l, RWalk (mapR A) x y l → RWalk (mapR A0) x y l
  keep : ∀ x y l, x ∉ C → y ∉ C → RWalk (mapR A0) x y l → ∃ l', l' ≤ l ∧ RWalk (mapR A) x y l'
  path : ∀ x y i, A x y = some i → ∃ E : List Nat, E.Nodup ∧ (∀ u ∈ E, u ∈ C ∧ Via A0 x u y) ∧
    i.weight ≤ (E.length + 1) * W ∧ i.hop ≤ E.length + 1

theorem SimplePaths.init {A0 : ArcMap} {n W : Nat} (h : ∀ x y i, A0 x y = some i → x < n ∧ i.weight ≤ W ∧ i.hop ≤ 1) :
    SimplePaths A0 n W [] A0 :=
  ⟨by simp, fun x y i hi => ⟨⟨(h x y i hi).1, by simp⟩, by simp⟩, fun _ _ _ h => h, fun _ _ l _ _ h => ⟨l, Nat.le_refl _, h⟩,
    fun x y i hi => ⟨[], by simp, by simp, by simpa using (h x y i hi).2.1, by simpa using (h x y i hi).2.2⟩⟩

theorem SimplePaths.step {A0 : ArcMap} {n W maxPop : Nat} {C : List Nat} {A A' : ArcMap} {v : Nat} (hz : NoNullCycle A0)
    (h : SimplePaths A0 n W C A) (hmp : 2 * n ≤ maxPop) (hv : v < n) (hvC : v ∉ C) (hs : Step n maxPop A v A') :
    SimplePaths A0 n W (C ++ [v]) A' := by
  refine ⟨?_, ?_, fun x y l hw => h.back x y l (hs.base.back hw), ?_, ?_⟩
  · intro x hx
    rcases List.mem_append.1 hx with hx | hx
    · exact h.lt x hx
    · rw [List.mem_singleton] at hx; omega
  · intro x y i hi
    obtain ⟨h1, h2⟩ := hs.base.avoid x y i hi
    have : (x < n ∧ x ∉ C) ∧ y ∉ C := by
      rcases hs.base.origin x y i hi with hi | ⟨i1, i2, e1, e2, _⟩
      · exact h.core x y i hi
      · exact ⟨(h.core _ _ _ e1).1, (h.core _ _ _ e2).2⟩
    simp [h1, h2, this.1, this.2]
  · intro x y l hx hy hw
    simp only [List.mem_append, List.mem_singleton, not_or] at hx hy
    obtain ⟨l1, hl1, hw1⟩ := h.keep x y l hx.1 hy.1 hw
    obtain ⟨l2, hl2, hw2⟩ := (hs.base.walk hs.loops hw1 hy.2).1 hx.2
    exact ⟨l2, by omega, hw2⟩
  · intro x y i hi
    rcases hs.minimal hmp x y i hi with hi | ⟨i1, i2, e1, e2, rfl, hmin⟩
    · obtain ⟨E, h1, h2, h3⟩ := h.path x y i hi
      exact ⟨E, h1, fun u hu => ⟨List.mem_append_left _ (h2 u hu).1, (h2 u hu).2⟩, h3⟩
    · obtain ⟨E1, a1, a2, a3, a4⟩ := h.path _ _ _ e1
      obtain ⟨E2, b1, b2, b3, b4⟩ := h.path _ _ _ e2
      have w1 : RWalk (mapR A0) x v i1.weight := h.back _ _ _ (.single ⟨i1, e1, rfl⟩)
      have w2 : RWalk (mapR A0) v y i2.weight := h.back _ _ _ (.single ⟨i2, e2, rfl⟩)
      have hvia : Via A0 x v y := by
        intro l hw
        obtain ⟨l', hl, hw'⟩ := h.keep x y l (h.core _ _ _ e1).1.2 (h.core _ _ _ e2).2 hw
        rcases hw'.split (v := v) with ha | ⟨l1, l2, h1, h2, h3⟩
        · have := hmin l' ha
          simp only [shortcut] at this
          exact ⟨_, _, w1, w2, by omega⟩
        · exact ⟨l1, l2, h.back _ _ _ h1, h.back _ _ _ h2, by omega⟩
      have hlen : (E1 ++ v :: E2).length + 1 = E1.length + 1 + (E2.length + 1) := by simp; omega
      refine ⟨E1 ++ v :: E2, ?_, ?_, ?_, ?_⟩
      · rw [List.nodup_append, List.nodup_cons]
        refine ⟨a1, ⟨fun hm => hvC (b2 v hm).1, b1⟩, ?_⟩
        rintro u hu w hw rfl
        rcases List.mem_cons.1 hw with rfl | hw
        · exact hvC (a2 _ hu).1
        · have := Via.meet hz (w1.append w2) hvia (a2 u hu).2 (b2 u hw).2
          exact hvC (this ▸ (a2 u hu).1)
      · intro u hu
        rcases List.mem_append.1 hu with hu | hu
        · exact ⟨List.mem_append_left _ (a2 u hu).1, hvia.left (a2 u hu).2⟩
        · rcases List.mem_cons.1 hu with rfl | hu
          · exact ⟨by simp, hvia⟩
          · exact ⟨List.mem_append_left _ (b2 u hu).1, hvia.right (b2 u hu).2⟩
      · rw [hlen, Nat.add_mul]
        simp only [shortcut]; omega
      · rw [hlen]
        have : add32 i1.hop i2.hop ≤ i1.hop + i2.hop := Nat.mod_le _ _
        simp only [shortcut]; omega

theorem SimplePaths.le {A0 : ArcMap} {n W : Nat} {C : List Nat} {A : ArcMap} (h : SimplePaths A0 n W C A) :
    ∀ x y i, A x y = some i → i.weight ≤ n * W ∧ i.hop ≤ n := by
  intro x y i hi
  obtain ⟨E, h1, h2, h3, h4⟩ := h.path x y i hi
  obtain ⟨⟨hx, hxC⟩, _⟩ := h.core x y i hi
  have hnd : (x :: E).Nodup := List.nodup_cons.2 ⟨fun hm => hxC (h2 x hm).1, h1⟩
  have hsub : (x :: E) ⊆ List.range n := by
    intro u hu
    rcases List.mem_cons.1 hu with rfl | hu
    · exact List.mem_range.2 hx
    · exact List.mem_range.2 (h.lt u (h2 u hu).1)
  have hl := (hnd.subperm hsub).length_le
  simp only [List.length_cons, List.length_range] at hl
  exact ⟨Nat.le_trans h3 (Nat.mul_le_mul_right _ hl), by omega⟩

end RK
