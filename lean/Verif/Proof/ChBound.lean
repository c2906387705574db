import Verif.Proof.ChTotal
import Verif.Proof.ContractDist
import Verif.Proof.ShortWalk
/-! Helper lemmas: bounds on the arcs of all states of the construction of a contraction hierarchy. -/
namespace RK
open Spec WitnessSearch ChGraph

/-- One contraction: what `contractNode_spec` says about the arcs before and after it. -/
structure Step (n maxPop : Nat) (A : ArcMap) (v : Nat) (A' : ArcMap) : Prop where
  base : Contracted A v A'
  loops : ∀ x, A x x = none
  minimal : 2 * n ≤ maxPop → ∀ x y i, A' x y = some i → A x y = some i ∨
    ∃ i1 i2, A x v = some i1 ∧ A v y = some i2 ∧ i = shortcut v i1 i2 ∧ ∀ l, RWalk (arcR A v) x y l → i.weight < l

/-- A property of the arcs that holds in the beginning and is kept by contractions holds in all states. -/
theorem BuildRun.bound {n M H maxPop : Nat} {g : ChGraph} {A0 : ArcMap} (J : List Nat → ArcMap → Prop)
    (hn : n ≤ 65535) (hg : GRep g n A0) (h12 : 12 * M < u32) (h0 : J [] A0)
    (hstep : ∀ C A v A', J C A → v < n → v ∉ C → Step n maxPop A v A' → J (C ++ [v]) A')
    (hJ : ∀ C A, J C A → C.length ≤ n → ∀ x y i, A x y = some i → i.weight ≤ M ∧ i.hop ≤ H)
    {C : List Nat} {s : BuildState} (h : BuildRun n g maxPop C s) :
    (∃ A, GRep s.graph n A ∧ Idle s.wit n ∧ s.wit.maxPop = maxPop ∧ J C A) ∧ C.Nodup ∧ (∀ x ∈ C, x < n) ∧
      s.fwd.head.length ≤ C.length * n ∧ s.bwd.head.length ≤ C.length * n := by
  have hlen : ∀ C : List Nat, C.Nodup → (∀ x ∈ C, x < n) → C.length ≤ n := fun C h1 h2 => by
    have hsub : C ⊆ List.range n := fun x hx => List.mem_range.2 (h2 x hx)
    have := (h1.subperm hsub).length_le
    simpa using this
  have hmul : ∀ k, k ≤ n → k * n + n ≤ invalidId := by
    intro k hk
    have h1 : k * n ≤ 65535 * 65535 := Nat.mul_le_mul (by omega) hn
    have : invalidId = 4294967295 := rfl
    omega
  induction h with
  | start =>
    exact ⟨⟨A0, hg, idle_new (by have : MinIDQueue.maxIds = 1073741824 := rfl; omega), rfl, h0⟩, by simp, by simp,
      by simp [ChRows.empty], by simp [ChRows.empty]⟩
  | @contract C s s' v hr hv hvC e ih =>
    obtain ⟨⟨A, hA, hw, hmp, hj⟩, hnd, hlt, hf, hb⟩ := ih
    have hC := hlen C hnd hlt
    obtain ⟨ov, iv, eo, ei, e1, e2, e3⟩ := contractStep_split e
    obtain ⟨ov', eo', ho⟩ := hA.out v hv
    obtain ⟨iv', ei', hi⟩ := hA.inn v hv
    rw [eo] at eo'; cases eo'
    rw [ei] at ei'; cases ei'
    have hlo := ho.length_le (n := n) (fun y i h => (hA.dom _ _ _ h).2.1)
    have hli := hi.length_le (n := n) (fun y i h => (hA.dom _ _ _ h).1)
    have hM := hJ C A hj hC
    obtain ⟨g', w', A', e3', hg', hw', hmp', _, hc, hmin⟩ := contractNode_spec (M := M) hA hw hv
      (fun x y i h => by have := (hM x y i h).1; omega) (fun x i h => by
        rcases h with h | h <;> exact (hM _ _ _ h).1) (by omega)
    rw [e3] at e3'
    obtain ⟨rfl, rfl⟩ := Prod.mk.inj (Option.some.inj e3')
    have hm := hmul _ hC
    obtain ⟨f', ef, lf⟩ := ChRows.emit_total v ov s.fwd (by omega)
    obtain ⟨b', eb, lb⟩ := ChRows.emit_total v iv s.bwd (by omega)
    rw [e1] at ef; cases ef
    rw [e2] at eb; cases eb
    have hnd' : (C ++ [v]).Nodup := by
      rw [List.nodup_append]
      exact ⟨hnd, by simp, by
        intro a ha b hb hab
        rw [List.mem_singleton] at hb
        subst hb; subst hab; exact hvC ha⟩
    refine ⟨⟨A', hg', hw', by rw [hmp', hmp], hstep C A v A' hj hv hvC ⟨hc, hA.irrefl, by rw [← hmp]; exact hmin⟩⟩,
      hnd', ?_, ?_, ?_⟩
    · intro x hx
      rcases List.mem_append.1 hx with hx | hx
      · exact hlt x hx
      · rw [List.mem_singleton] at hx; omega
    · rw [List.length_append, List.length_singleton, Nat.add_mul, Nat.one_mul]; omega
    · rw [List.length_append, List.length_singleton, Nat.add_mul, Nat.one_mul]; omega
  | @estimate C s w v k hr hv e ih =>
    obtain ⟨⟨A, hA, hw, hmp, hj⟩, hnd, hlt, hf, hb⟩ := ih
    have hM := hJ C A hj (hlen C hnd hlt)
    obtain ⟨h1, h2⟩ := estimate_idle' hA hv (fun x y i h => (hM x y i h).1) (by omega) hw e
    exact ⟨⟨A, hA, h1, h2.trans hmp, hj⟩, hnd, hlt, hf, hb⟩
  | @level C s g' v k hr e ih =>
    obtain ⟨⟨A, hA, hw, hmp, hj⟩, hnd, hlt, hf, hb⟩ := ih
    exact ⟨⟨A, hA.raise e, hw, hmp, hj⟩, hnd, hlt, hf, hb⟩

theorem hopSum_le {l : List ChArc} {H : Nat} (h : ∀ a ∈ l, a.hop ≤ H) : (l.map (·.hop)).sum ≤ l.length * H := by
  induction l with
  | nil => simp
  | cons a l ih =>
    have h1 := h a (by simp)
    have h2 := ih (fun a ha => h a (by simp [ha]))
    rw [List.map_cons, List.sum_cons, List.length_cons, Nat.add_mul, Nat.one_mul]
    omega

/-- Bounds on the arcs give the bounds on the states. -/
theorem BuildRun.fits {n M H maxPop : Nat} {g : ChGraph} {A0 : ArcMap} (J : List Nat → ArcMap → Prop)
    (hn : n ≤ 65535) (hg : GRep g n A0) (h12 : 12 * M < u32) (h0 : J [] A0)
    (hstep : ∀ C A v A', J C A → v < n → v ∉ C → Step n maxPop A v A' → J (C ++ [v]) A')
    (hJ : ∀ C A, J C A → C.length ≤ n → ∀ x y i, A x y = some i → i.weight ≤ M ∧ i.hop ≤ H)
    {C : List Nat} {s : BuildState} (h : BuildRun n g maxPop C s) :
    s.Fits n M ∧ (1 + 2 * (n * H) < 2 ^ 32 → s.HopsFit) := by
  obtain ⟨⟨A, hA, _, _, hj⟩, hnd, hlt, hf, hb⟩ := h.bound J hn hg h12 h0 hstep hJ
  have hC : C.length ≤ n := by
    have hsub : C ⊆ List.range n := fun x hx => List.mem_range.2 (hlt x hx)
    have := (hnd.subperm hsub).length_le
    simpa using this
  have hM := hJ C A hj hC
  have hm : C.length * n + n ≤ invalidId := by
    have h1 : C.length * n ≤ 65535 * 65535 := Nat.mul_le_mul (by omega) hn
    have : invalidId = 4294967295 := rfl
    omega
  have hout : ∀ (v : Nat) (arcs : List ChArc), s.graph.out[v]? = some arcs → arcs.length ≤ n ∧
      ∀ a ∈ arcs, a.weight ≤ M ∧ a.hop ≤ H := by
    intro v arcs e
    have hv : v < n := by rw [← hA.lenOut]; exact rd_some_lt (v := s.graph.out) e
    obtain ⟨l, el, hl⟩ := hA.out v hv
    have : some arcs = some l := e.symm.trans el
    cases this
    exact ⟨hl.length_le (n := n) (fun y i h => (hA.dom _ _ _ h).2.1), fun a ha => hM _ _ _ ((hl.mem a).1 ha)⟩
  have hinn : ∀ (v : Nat) (arcs : List ChArc), s.graph.inn[v]? = some arcs → arcs.length ≤ n ∧
      ∀ a ∈ arcs, a.weight ≤ M ∧ a.hop ≤ H := by
    intro v arcs e
    have hv : v < n := by rw [← hA.lenIn]; exact rd_some_lt (v := s.graph.inn) e
    obtain ⟨l, el, hl⟩ := hA.inn v hv
    have : some arcs = some l := e.symm.trans el
    cases this
    exact ⟨hl.length_le (n := n) (fun y i h => (hA.dom _ _ _ h).1), fun a ha => hM _ _ _ ((hl.mem a).1 ha)⟩
  refine ⟨⟨fun v arcs a e ha => ((hout v arcs e).2 a ha).1, fun v arcs a e ha => ((hinn v arcs e).2 a ha).1,
    by omega, by omega⟩, ?_⟩
  intro hH v iv ov ei eo
  obtain ⟨li, hi⟩ := hinn v iv ei
  obtain ⟨lo, ho⟩ := hout v ov eo
  have h1 := hopSum_le (fun a ha => (hi a ha).2)
  have h2 := hopSum_le (fun a ha => (ho a ha).2)
  have h3 : iv.length * H ≤ n * H := Nat.mul_le_mul_right _ li
  have h4 : ov.length * H ≤ n * H := Nat.mul_le_mul_right _ lo
  omega

/-! ### Every contraction at most doubles the numbers -/

def Doubling (W : Nat) (C : List Nat) (A : ArcMap) : Prop :=
  ∀ x y i, A x y = some i → i.weight ≤ 2 ^ C.length * W ∧ i.hop ≤ 2 ^ C.length

theorem Doubling.step {W n maxPop : Nat} {C : List Nat} {A A' : ArcMap} {v : Nat} (h : Doubling W C A)
    (hs : Step n maxPop A v A') : Doubling W (C ++ [v]) A' := by
  intro x y i hi
  rw [List.length_append, List.length_singleton, Nat.pow_succ, Nat.mul_comm _ 2, Nat.mul_assoc]
  rcases hs.base.origin x y i hi with hi | ⟨i1, i2, h1, h2, rfl⟩
  · obtain ⟨a, b⟩ := h x y i hi
    omega
  · obtain ⟨a, b⟩ := h _ _ _ h1
    obtain ⟨c, d⟩ := h _ _ _ h2
    have : add32 i1.hop i2.hop ≤ i1.hop + i2.hop := Nat.mod_le _ _
    simp only [shortcut]
    omega

theorem Doubling.le {W n : Nat} {C : List Nat} {A : ArcMap} (h : Doubling W C A) (hC : C.length ≤ n) :
    ∀ x y i, A x y = some i → i.weight ≤ 2 ^ n * W ∧ i.hop ≤ 2 ^ n := by
  intro x y i hi
  obtain ⟨a, b⟩ := h x y i hi
  have h1 : 2 ^ C.length ≤ 2 ^ n := Nat.pow_le_pow_right (by omega) hC
  have h2 : 2 ^ C.length * W ≤ 2 ^ n * W := Nat.mul_le_mul_right _ h1
  omega

/-! ### Arcs that are shortest paths -/

/-- Every arc is a shortest path, in the remaining graph and in the input. -/
structure Shortest (A0 : ArcMap) (C : List Nat) (A : ArcMap) : Prop where
  core : ∀ x y i, A x y = some i → x ∉ C ∧ y ∉ C
  leave : ∀ x y i, A x y = some i → ∃ z j, A0 x z = some j
  least : ∀ x y i, A x y = some i → ∀ l, RWalk (mapR A) x y l → i.weight ≤ l
  back : ∀ x y l, RWalk (mapR A) x y l → RWalk (mapR A0) x y l
  keep : ∀ x y l, x ∉ C → y ∉ C → RWalk (mapR A0) x y l → ∃ l', l' ≤ l ∧ RWalk (mapR A) x y l'

/-- A walk avoids `v` or passes it. -/
theorem RWalk.split {A : ArcMap} {v x y l : Nat} (h : RWalk (mapR A) x y l) :
    RWalk (arcR A v) x y l ∨ ∃ l1 l2, RWalk (mapR A) x v l1 ∧ RWalk (mapR A) v y l2 ∧ l1 + l2 = l := by
  induction h with
  | nil x => exact Or.inl (.nil x)
  | @cons x z y w l ha hw ih =>
    by_cases hx : x = v
    · subst hx
      exact Or.inr ⟨0, w + l, .nil _, .cons ha hw, by omega⟩
    · by_cases hz : z = v
      · subst hz
        exact Or.inr ⟨w, l, .single ha, hw, rfl⟩
      · rcases ih with h | ⟨l1, l2, h1, h2, h3⟩
        · obtain ⟨i, hi, hiw⟩ := ha
          exact Or.inl (.cons ⟨i, hi, hiw, hx, hz⟩ h)
        · exact Or.inr ⟨w + l1, l2, .cons ha h1, h2, by omega⟩

theorem Shortest.init {A0 : ArcMap} (h : ∀ x y i, A0 x y = some i → ∀ l, RWalk (mapR A0) x y l → i.weight ≤ l) :
    Shortest A0 [] A0 :=
  ⟨by simp, fun _ _ _ h => ⟨_, _, h⟩, h, fun _ _ _ h => h, fun _ _ l _ _ h => ⟨l, Nat.le_refl _, h⟩⟩

theorem Shortest.step {A0 : ArcMap} {n maxPop : Nat} {C : List Nat} {A A' : ArcMap} {v : Nat} (h : Shortest A0 C A)
    (hmp : 2 * n ≤ maxPop) (hs : Step n maxPop A v A') : Shortest A0 (C ++ [v]) A' := by
  refine ⟨?_, ?_, ?_, fun x y l hw => h.back x y l (hs.base.back hw), ?_⟩
  · intro x y i hi
    obtain ⟨h1, h2⟩ := hs.base.avoid x y i hi
    have : x ∉ C ∧ y ∉ C := by
      rcases hs.base.origin x y i hi with hi | ⟨i1, i2, e1, e2, _⟩
      · exact h.core x y i hi
      · exact ⟨(h.core _ _ _ e1).1, (h.core _ _ _ e2).2⟩
    simp [h1, h2, this.1, this.2]
  · intro x y i hi
    rcases hs.base.origin x y i hi with hi | ⟨i1, i2, e1, e2, _⟩
    · exact h.leave x y i hi
    · exact h.leave _ _ _ e1
  · intro x y i hi l hw
    have hw' := hs.base.back hw
    rcases hs.minimal hmp x y i hi with hi | ⟨i1, i2, e1, e2, rfl, hmin⟩
    · exact h.least x y i hi l hw'
    · rcases hw'.split (v := v) with ha | ⟨l1, l2, h1, h2, h3⟩
      · exact Nat.le_of_lt (hmin l ha)
      · have := h.least _ _ _ e1 l1 h1
        have := h.least _ _ _ e2 l2 h2
        simp only [shortcut]; omega
  · intro x y l hx hy hw
    simp only [List.mem_append, List.mem_singleton, not_or] at hx hy
    obtain ⟨l1, hl1, hw1⟩ := h.keep x y l hx.1 hy.1 hw
    obtain ⟨l2, hl2, hw2⟩ := (hs.base.walk hs.loops hw1 hy.2).1 hx.2
    exact ⟨l2, by omega, hw2⟩

/-! ### The graph the construction starts with -/

theorem startGraph_rep {n : Nat} {tail head weight : List Nat} (h1 : head.length = tail.length)
    (h2 : weight.length = tail.length) (ht : ∀ x ∈ tail, x < n) (hh : ∀ x ∈ head, x < n)
    (hsize : tail.length ≤ invalidId) {g : ChGraph} (hg : startGraph n tail head weight = some g) :
    ∃ A0, GRep g n A0 ∧ (∀ x y i, A0 x y = some i → i.hop = 1 ∧ i.weight ∈ weight ∧
        ∃ a, listArcs tail head weight a x y i.weight) ∧
      ∀ a x y w, listArcs tail head weight a x y w → x ≠ y → ∃ i, A0 x y = some i ∧ i.weight ≤ w := by
  obtain ⟨inp, g', A0, fo, er, eg, hgr, hA, hAw, hall, hpw, ef, hin, hhop⟩ := input_spec h1 h2 ht hh hsize
  rw [startGraph_spec er eg] at hg
  cases hg
  refine ⟨A0, hgr, fun x y i hi => ⟨hhop x y i hi, hAw x y i hi, ?_⟩, hall⟩
  obtain ⟨_, a, ha⟩ := hA x y i hi
  obtain ⟨j, _, hj⟩ := hin.src a x y _ ha
  exact ⟨j, hj⟩

theorem exists_dist {R : ArcRel} {x y l : Nat} {p : List Nat} (h : Walk R x p y l) : ∃ d, IsDist R x y d := by
  classical
  have hex : ∃ d, ∃ p, Walk R x p y d := ⟨l, p, h⟩
  exact ⟨Nat.find hex, Nat.find_spec hex, fun p l hp => Nat.find_min' hex ⟨p, hp⟩⟩

/-- In a graph whose arcs are as short as the distances, so are the arcs the construction starts with. -/
theorem start_shortest {In : ArcRel} {A0 : ArcMap} (hin : ∀ x y i, A0 x y = some i → x ≠ y ∧ ∃ a, In a x y i.weight)
    (hall : ∀ a x y w, In a x y w → x ≠ y → ∃ i, A0 x y = some i ∧ i.weight ≤ w)
    (htight : ∀ a x y w, In a x y w → x ≠ y → ∃ b d, In b x y d ∧ IsDist In x y d) : Shortest A0 [] A0 := by
  refine Shortest.init ?_
  intro x y i hi l hw
  obtain ⟨hxy, a, ha⟩ := hin x y i hi
  obtain ⟨b, d, hb, hd⟩ := htight a x y _ ha hxy
  obtain ⟨i', hi', hle⟩ := hall b x y d hb hxy
  rw [hi] at hi'; cases hi'
  obtain ⟨p, hp⟩ := (walk_iff (R := In) (Q := fun x y w => ∃ a, In a x y w) (fun _ _ _ => Iff.rfl) x y l).2
    (hw.mono (by rintro x y w ⟨i, hi, rfl⟩; exact (hin x y i hi).2))
  have := hd.2 p l hp
  omega

theorem skip_loops {In : ArcRel} {A0 : ArcMap}
    (hall : ∀ a x y w, In a x y w → x ≠ y → ∃ i, A0 x y = some i ∧ i.weight ≤ w) {x y l : Nat}
    (h : RWalk (fun x y w => ∃ a, In a x y w) x y l) : ∃ l', l' ≤ l ∧ RWalk (mapR A0) x y l' := by
  induction h with
  | nil x => exact ⟨0, Nat.le_refl _, .nil x⟩
  | @cons x z y w l ha _ ih =>
    obtain ⟨a, ha⟩ := ha
    obtain ⟨l', hl', hw'⟩ := ih
    by_cases hxz : x = z
    · subst hxz; exact ⟨l', by omega, hw'⟩
    · obtain ⟨i, hi, hle⟩ := hall a x z w ha hxz
      exact ⟨_, Nat.add_le_add hle hl', .cons ⟨i, hi, rfl⟩ hw'⟩

/-- Arcs that are shortest paths are bounded by the distances of the input. -/
theorem Shortest.weight_le {In : ArcRel} {A0 : ArcMap} {n W : Nat} {C : List Nat} {A : ArcMap} (h : Shortest A0 C A)
    (hin : ∀ x y i, A0 x y = some i → x ≠ y ∧ ∃ a, In a x y i.weight)
    (hall : ∀ a x y w, In a x y w → x ≠ y → ∃ i, A0 x y = some i ∧ i.weight ≤ w)
    (hInn : ∀ a x y w, In a x y w → x < n ∧ y < n) (hW : ∀ a x y w, In a x y w → w ≤ W) :
    ∀ x y i, A x y = some i → i.weight ≤ n * W := by
  intro x y i hi
  have hQ : ∀ x y w, (∃ a, In a x y w) ↔ (fun x y w => ∃ a, In a x y w) x y w := fun _ _ _ => Iff.rfl
  have hw0 := h.back x y _ (RWalk.single ⟨i, hi, rfl⟩)
  obtain ⟨p, hp⟩ := (walk_iff (R := In) hQ x y i.weight).2
    (hw0.mono (by rintro x y w ⟨i, hi, rfl⟩; exact (hin x y i hi).2))
  obtain ⟨d, hd⟩ := exists_dist hp
  have hxn : x < n := by
    obtain ⟨z, j, hj⟩ := h.leave x y i hi
    obtain ⟨_, a, ha⟩ := hin _ _ _ hj
    exact (hInn _ _ _ _ ha).1
  have hle := isDist_le (n := n) (W := W) (fun a x y w h => (hInn a x y w h).2) hW hxn hd
  obtain ⟨q, hq⟩ := hd.1
  have hwq := (walk_iff (R := In) hQ x y d).1 ⟨q, hq⟩
  obtain ⟨l', hl', hw'⟩ := skip_loops hall hwq
  obtain ⟨h1, h2⟩ := h.core x y i hi
  obtain ⟨l'', hl'', hw''⟩ := h.keep x y l' h1 h2 hw'
  have := h.least x y i hi l'' hw''
  omega

end RK
