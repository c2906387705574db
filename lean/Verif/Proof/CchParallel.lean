import Verif.Proof.CchLevels
/-! Helper lemmas for the interleavings of the parallel customization. -/
namespace RK
open Spec

/-! ### Weights of both directions as one function -/

def CellsIs (m : Metric) (N : Nat) (V : Bool → Nat → Nat) : Prop := MetricIs m N (V true) (V false)

def setCell (V : Bool → Nat → Nat) (d : Bool) (a v : Nat) : Bool → Nat → Nat :=
  fun d' i => if d' = d ∧ i = a then v else V d' i

theorem setCell_same (V : Bool → Nat → Nat) (d : Bool) (a v : Nat) : setCell V d a v d a = v := by simp [setCell]
theorem setCell_ne (V : Bool → Nat → Nat) {d d' : Bool} {a i : Nat} (v : Nat) (h : i ≠ a) : setCell V d a v d' i = V d' i := by
  simp [setCell, h]
theorem setCell_dir (V : Bool → Nat → Nat) {d d' : Bool} {a i : Nat} (v : Nat) (h : d' ≠ d) : setCell V d a v d' i = V d' i := by
  simp [setCell, h]

section
variable {m : Metric} {N : Nat} {V : Bool → Nat → Nat}

theorem CellsIs.rd (h : CellsIs m N V) (d : Bool) {a : Nat} (ha : a < N) : rd (m.side d) a = some (V d a) := by
  cases d
  · exact h.bwd a ha
  · exact h.fwd a ha

theorem CellsIs.wr (h : CellsIs m N V) (d : Bool) {a : Nat} (ha : a < N) (v : Nat) :
    ∃ m', m.wrSide d a v = some m' ∧ CellsIs m' N (setCell V d a v) := by
  cases d
  · obtain ⟨B, e, hB⟩ := h.isB.wr ha v
    refine ⟨⟨m.forward, B⟩, ?_, ?_⟩
    · unfold Metric.wrSide Metric.side; simp [e]
    · have e1 : setCell V false a v true = V true := by funext i; simp [setCell]
      have e2 : setCell V false a v false = setAt (V false) a v := by funext i; simp [setCell, setAt]
      unfold CellsIs
      rw [e1, e2]
      exact MetricIs.mk' h.isF hB
  · obtain ⟨F, e, hF⟩ := h.isF.wr ha v
    refine ⟨⟨F, m.backward⟩, ?_, ?_⟩
    · unfold Metric.wrSide Metric.side; simp [e]
    · have e1 : setCell V true a v false = V false := by funext i; simp [setCell]
      have e2 : setCell V true a v true = setAt (V true) a v := by funext i; simp [setCell, setAt]
      unfold CellsIs
      rw [e1, e2]
      exact MetricIs.mk' hF h.isB

end

/-! ### Extraction of the initial weights -/

/-- The instruction only accesses the weights of arc `a`. -/
def isLocal (a : Nat) : Instr → Prop
  | .store _ i _ => i = a
  | .minStore _ i _ => i = a
  | .relax _ _ => False

/-- The effect on the two weights of the arc. -/
def evalI (q : Bool → Nat) : Instr → Bool → Nat
  | .store d _ v => fun d' => if d' = d then v else q d'
  | .minStore d _ v => fun d' => if d' = d then min (q d) v else q d'
  | .relax _ _ => q

/-- Sequential execution. -/
def runInstr (m : Metric) : Instr → Option Metric
  | .store d a v => m.wrSide d a v
  | .minStore d a v => do
    let s ← minTo (m.side d) a v
    some (if d then ⟨s, m.backward⟩ else ⟨m.forward, s⟩)
  | .relax _ _ => none

/-- Replace both weights of an arc. -/
def setCells (V : Bool → Nat → Nat) (a : Nat) (q : Bool → Nat) : Bool → Nat → Nat := fun d i => if i = a then q d else V d i

theorem setCells_same (V : Bool → Nat → Nat) (a : Nat) (q : Bool → Nat) : (fun d => setCells V a q d a) = q := by
  funext d; simp [setCells]

theorem setCells_setCells (V : Bool → Nat → Nat) (a : Nat) (q q' : Bool → Nat) :
    setCells (setCells V a q) a q' = setCells V a q' := by
  funext d i; unfold setCells; split <;> rfl

theorem setCells_self (V : Bool → Nat → Nat) (a : Nat) : setCells V a (fun d => V d a) = V := by
  funext d i; unfold setCells; split <;> simp_all

theorem setCell_eval (V : Bool → Nat → Nat) (d : Bool) (a v : Nat) :
    setCell V d a v = setCells V a (fun d' => if d' = d then v else V d' a) := by
  funext d' i
  unfold setCell setCells
  by_cases h1 : i = a
  · subst h1; by_cases h2 : d' = d <;> simp [h2]
  · simp [h1]

theorem runInstr_spec {m : Metric} {N : Nat} {V : Bool → Nat → Nat} (h : CellsIs m N V) {a : Nat} (ha : a < N) {i : Instr}
    (hi : isLocal a i) : ∃ m', runInstr m i = some m' ∧ CellsIs m' N (setCells V a (evalI (fun d => V d a) i)) := by
  cases i with
  | store d i v =>
    cases (hi : i = a)
    obtain ⟨m', e, h'⟩ := h.wr d ha v
    refine ⟨m', e, ?_⟩
    rw [setCell_eval] at h'
    exact h'
  | minStore d i v =>
    cases (hi : i = a)
    unfold runInstr minTo
    simp only [h.rd d ha, Option.bind_eq_bind, Option.bind_some]
    have hev : ∀ x, x = min (V d a) v → CellsIs m N (setCell V d a x) → CellsIs m N (setCells V a (evalI (fun d => V d a) (.minStore d a v))) := by
      intro x hx h'
      rw [setCell_eval, hx] at h'
      exact h'
    by_cases hv : v < V d a
    · rw [if_pos hv]
      obtain ⟨m', e, h'⟩ := h.wr d ha v
      refine ⟨m', ?_, ?_⟩
      · unfold Metric.wrSide at e
        exact e
      · rw [setCell_eval] at h'
        have : v = min (V d a) v := by omega
        rw [this] at h'
        exact h'
    · rw [if_neg hv]
      refine ⟨m, ?_, ?_⟩
      · unfold Metric.side
        cases d <;> rfl
      · apply hev (V d a) (by omega)
        have : setCell V d a (V d a) = V := by
          funext d' j
          unfold setCell
          split
          · rename_i q; rw [q.1, q.2]
          · rfl
        rw [this]
        exact h
  | relax d t => exact hi.elim

theorem runProg_spec {N a : Nat} (ha : a < N) : ∀ (p : List Instr) {m : Metric} {V : Bool → Nat → Nat}, CellsIs m N V →
    (∀ i ∈ p, isLocal a i) → ∃ m', forEach p m runInstr = some m' ∧ CellsIs m' N (setCells V a (p.foldl evalI fun d => V d a))
  | [], m, V, h, _ => ⟨m, rfl, by
      show CellsIs m N (setCells V a fun d => V d a)
      rw [setCells_self]; exact h⟩
  | i :: p, m, V, h, hp => by
    obtain ⟨m1, e1, h1⟩ := runInstr_spec h ha (hp i (by simp))
    obtain ⟨m2, e2, h2⟩ := runProg_spec ha p h1 (fun j hj => hp j (by simp [hj]))
    refine ⟨m2, ?_, ?_⟩
    · show (runInstr m i).bind _ = _
      rw [e1]; exact e2
    · rw [setCells_same, setCells_setCells] at h2
      exact h2

/-- Replace the weights of one direction. -/
def Metric.withSide (m : Metric) (d : Bool) (s : List Nat) : Metric := if d then ⟨s, m.backward⟩ else ⟨m.forward, s⟩

theorem Metric.side_withSide (m : Metric) (d : Bool) (s : List Nat) : (m.withSide d s).side d = s := by
  cases d <;> rfl

theorem Metric.withSide_withSide (m : Metric) (d : Bool) (s s' : List Nat) : (m.withSide d s).withSide d s' = m.withSide d s' := by
  cases d <;> rfl

theorem forEach_append {σ α : Type} (f : σ → α → Option σ) : ∀ (l l' : List α) (s : σ),
    forEach (l ++ l') s f = (forEach l s f).bind fun s => forEach l' s f
  | [], l', s => rfl
  | x :: l, l', s => by
    show (f s x).bind _ = ((f s x).bind _).bind _
    cases f s x with
    | none => rfl
    | some s' => exact forEach_append f l l' s'

theorem extraN_spec {w extra : List Nat} {a : Nat} {d : Bool} : ∀ (k lo : Nat) {v v' : List Nat},
    forN (fun v j => do
      let e ← rd extra j
      let x ← rd w e
      minTo v a x) lo k v = some v' →
    ∃ p, (List.range' lo k).mapM (fun j => do
        let e ← rd extra j
        let x ← rd w e
        some (Instr.minStore d a x)) = some p ∧ (∀ i ∈ p, isLocal a i) ∧
      ∀ m : Metric, forEach p (m.withSide d v) runInstr = some (m.withSide d v')
  | 0, lo, v, v', h => by
    cases (h : some v = some v')
    exact ⟨[], rfl, by simp, fun m => rfl⟩
  | k + 1, lo, v, v', h => by
    unfold forN at h
    obtain ⟨v1, h1, h2⟩ := Option.bind_eq_some_iff.1 h
    obtain ⟨e, he, h1⟩ := Option.bind_eq_some_iff.1 h1
    obtain ⟨x, hx, h1⟩ := Option.bind_eq_some_iff.1 h1
    obtain ⟨p, e1, e2, e3⟩ := extraN_spec (d := d) k (lo + 1) h2
    refine ⟨.minStore d a x :: p, ?_, ?_, ?_⟩
    · rw [List.range'_succ, List.mapM_cons, e1]
      simp [he, hx]
    · intro i hi
      rcases List.mem_cons.1 hi with rfl | hi
      · rfl
      · exact e2 i hi
    · intro m
      show (runInstr (m.withSide d v) (.minStore d a x)).bind _ = _
      have : runInstr (m.withSide d v) (.minStore d a x) = some (m.withSide d v1) := by
        show (minTo ((m.withSide d v).side d) a x).bind _ = _
        rw [Metric.side_withSide, h1]
        show some _ = some _
        rw [← Metric.withSide_withSide m d v v1]
        rfl
      rw [this]
      exact e3 m

theorem extraProg_spec {w fo extra v v' : List Nat} {i a : Nat} {d : Bool} (h : initExtra w fo extra i a v = some v') :
    ∃ p, extraProg w fo extra i a d = some p ∧ (∀ j ∈ p, isLocal a j) ∧
      ∀ m : Metric, forEach p (m.withSide d v) runInstr = some (m.withSide d v') := by
  unfold initExtra at h
  obtain ⟨lo, h1, h⟩ := Option.bind_eq_some_iff.1 h
  obtain ⟨hi, h2, h⟩ := Option.bind_eq_some_iff.1 h
  unfold forRange at h
  obtain ⟨p, e1, e2, e3⟩ := extraN_spec (d := d) _ _ h
  refine ⟨p, ?_, e2, e3⟩
  unfold extraProg
  simp only [h1, h2, Option.bind_eq_bind, Option.bind_some]
  exact e1

theorem extractProg_of {c : Cch} {w : List Nat} {m m' : Metric} {a : Nat} (h : extractArc c w m a = some m') :
    ∃ p, extractProg c w a = some p ∧ (∀ i ∈ p, isLocal a i) ∧ forEach p m runInstr = some m' := by
  unfold extractArc at h
  obtain ⟨has, h1, h⟩ := Option.bind_eq_some_iff.1 h
  unfold extractProg
  simp only [h1, Option.bind_eq_bind, Option.bind_some]
  have two : ∀ {f b : Nat} {F B : List Nat}, wr m.forward a f = some F → wr m.backward a b = some B →
      forEach [.store true a f, .store false a b] m runInstr = some ⟨F, B⟩ := by
    intro f b F B e1 e2
    show (runInstr m (.store true a f)).bind _ = _
    simp [runInstr, Metric.wrSide, Metric.side, e1, e2, forEach]
  have twoL : ∀ {f b : Nat}, ∀ i ∈ [Instr.store true a f, .store false a b], isLocal a i := by
    intro f b i hi
    simp at hi
    rcases hi with rfl | rfl <;> rfl
  cases has with
  | false =>
    simp only [Bool.not_false, if_true] at h ⊢
    obtain ⟨F, h2, h⟩ := Option.bind_eq_some_iff.1 h
    obtain ⟨B, h3, h⟩ := Option.bind_eq_some_iff.1 h
    cases h
    exact ⟨_, rfl, twoL, two h2 h3⟩
  | true =>
    simp only [Bool.not_true, Bool.false_eq_true, if_false] at h ⊢
    obtain ⟨i, h2, h⟩ := Option.bind_eq_some_iff.1 h
    obtain ⟨f, h3, h⟩ := Option.bind_eq_some_iff.1 h
    obtain ⟨F, h4, h⟩ := Option.bind_eq_some_iff.1 h
    obtain ⟨b, h5, h⟩ := Option.bind_eq_some_iff.1 h
    obtain ⟨B, h6, h⟩ := Option.bind_eq_some_iff.1 h
    obtain ⟨ex, h7, h⟩ := Option.bind_eq_some_iff.1 h
    simp only [h2, h3, h5, h7, Option.bind_eq_bind, Option.bind_some]
    cases ex with
    | false =>
      simp only [Bool.false_eq_true, if_false] at h ⊢
      cases h
      exact ⟨_, rfl, twoL, two h4 h6⟩
    | true =>
      simp only [if_true] at h ⊢
      obtain ⟨i', h8, h⟩ := Option.bind_eq_some_iff.1 h
      obtain ⟨F', h9, h⟩ := Option.bind_eq_some_iff.1 h
      obtain ⟨B', h10, h⟩ := Option.bind_eq_some_iff.1 h
      cases h
      obtain ⟨p1, e1, l1, r1⟩ := extraProg_spec (d := true) h9
      obtain ⟨p2, e2, l2, r2⟩ := extraProg_spec (d := false) h10
      simp only [h8, e1, e2, Option.bind_some]
      refine ⟨_, rfl, ?_, ?_⟩
      · intro j hj
        rcases List.mem_append.1 hj with hj | hj
        · rcases List.mem_append.1 hj with hj | hj
          · exact twoL j hj
          · exact l1 j hj
        · exact l2 j hj
      · rw [forEach_append, forEach_append, two h4 h6]
        have q1 := r1 ⟨F, B⟩
        have q2 := r2 ⟨F', B⟩
        show (forEach p1 ⟨F, B⟩ runInstr).bind _ = _
        have q1' : forEach p1 ⟨F, B⟩ runInstr = some ⟨F', B⟩ := q1
        rw [q1']
        exact q2

/-- The task for arc `a` will leave the weights `res`. -/
structure ExtTask (V : Bool → Nat → Nat) (a : Nat) (t : Task) (res : Bool → Nat) : Prop where
  loc : ∀ i ∈ t.prog, isLocal a i
  reg : t.reg = .start ∨ (t.reg = .seen ∧ ∃ d v p, t.prog = .minStore d a v :: p ∧ v < V d a)
  val : t.prog.foldl evalI (fun d => V d a) = res

theorem ExtTask.congr {V V' : Bool → Nat → Nat} {a : Nat} {t : Task} {res : Bool → Nat} (h : ExtTask V a t res)
    (hV : ∀ d, V' d a = V d a) : ExtTask V' a t res := by
  refine ⟨h.loc, ?_, ?_⟩
  · rcases h.reg with h | ⟨h, d, v, p, h1, h2⟩
    · exact Or.inl h
    · exact Or.inr ⟨h, d, v, p, h1, by rw [hV]; exact h2⟩
  · rw [show (fun d => V' d a) = fun d => V d a from funext hV]; exact h.val

theorem ExtTask.step {m : Metric} {N : Nat} {V : Bool → Nat → Nat} (hm : CellsIs m N V) {a : Nat} (ha : a < N) {t : Task}
    {res : Bool → Nat} (h : ExtTask V a t res) (hne : t.prog ≠ []) :
    ∃ m' t' V', stepTask m t = some (m', t') ∧ CellsIs m' N V' ∧ ExtTask V' a t' res ∧ ∀ d i, i ≠ a → V' d i = V d i := by
  obtain ⟨prog, reg⟩ := t
  obtain ⟨hloc, hreg, hval⟩ := h
  simp only at hloc hreg hval hne
  have store : ∀ {d : Bool} {v : Nat} {p : List Instr}, (∀ i ∈ p, isLocal a i) →
      p.foldl evalI (fun d' => if d' = d then v else V d' a) = res →
      ∃ m', m.wrSide d a v = some m' ∧ ∃ V', CellsIs m' N V' ∧ ExtTask V' a ⟨p, .start⟩ res ∧ ∀ d i, i ≠ a → V' d i = V d i := by
    intro d v p hp hv
    obtain ⟨m', e, h'⟩ := hm.wr d ha v
    refine ⟨m', e, _, h', ⟨hp, Or.inl rfl, ?_⟩, fun d' i hi => setCell_ne V v hi⟩
    rw [setCell_eval, setCells_same]
    exact hv
  cases prog with
  | nil => exact absurd rfl hne
  | cons i p =>
    have hp : ∀ j ∈ p, isLocal a j := fun j hj => hloc j (List.mem_cons_of_mem _ hj)
    have hi := hloc i (List.mem_cons_self ..)
    cases i with
    | relax d T => exact hi.elim
    | store d b v =>
      cases (hi : b = a)
      rcases hreg with h | ⟨h, d', v', p', h1, _⟩
      · subst h
        obtain ⟨m', e, V', q1, q2, q3⟩ := store (d := d) (v := v) hp hval
        exact ⟨m', _, V', by unfold stepTask; simp only [e, Option.bind_eq_bind, Option.bind_some], q1, q2, q3⟩
      · cases h1
    | minStore d b v =>
      cases (hi : b = a)
      rcases hreg with h | ⟨h, d', v', p', h1, h2⟩
      · subst h
        refine ⟨m, if v < V d a then ⟨.minStore d a v :: p, .seen⟩ else ⟨p, .start⟩, V, ?_, hm, ?_, fun _ _ _ => rfl⟩
        · unfold stepTask
          simp only [hm.rd d ha, Option.bind_eq_bind, Option.bind_some]
        · split
          · rename_i hv
            exact ⟨hloc, Or.inr ⟨rfl, d, v, p, rfl, hv⟩, hval⟩
          · rename_i hv
            refine ⟨hp, Or.inl rfl, ?_⟩
            have : evalI (fun d => V d a) (.minStore d a v) = fun d => V d a := by
              funext d'
              show (if d' = d then min (V d a) v else V d' a) = V d' a
              split
              · rename_i q; rw [q]; omega
              · rfl
            rw [List.foldl_cons, this] at hval
            exact hval
      · subst h
        cases h1
        have : evalI (fun d => V d a) (.minStore d a v) = fun d' => if d' = d then v else V d' a := by
          funext d'
          show (if d' = d then min (V d a) v else V d' a) = _
          rw [show min (V d a) v = v by omega]
        rw [List.foldl_cons, this] at hval
        obtain ⟨m', e, V', q1, q2, q3⟩ := store (d := d) (v := v) hp hval
        exact ⟨m', _, V', by unfold stepTask; simp only [e, Option.bind_eq_bind, Option.bind_some], q1, q2, q3⟩

/-! ### The relaxation of a level -/

structure VInv (tail head : List Nat) (A : ArcRel) (D : Bool → Tri → Prop) (V : Bool → Nat → Nat) : Prop where
  le : ∀ d a, a < tail.length → V d a ≤ infWeight
  base : ∀ a x y, rd tail a = some x → rd head a = some y → ∀ i w, (A i x y w → V true a ≤ w) ∧ (A i y x w → V false a ≤ w)
  sound : ∀ a x y, rd tail a = some x → rd head a = some y →
    (V true a < infWeight → ∃ p, InnerWalk A (fun z => z < x) x p y (V true a)) ∧
    (V false a < infWeight → ∃ p, InnerWalk A (fun z => z < x) y p x (V false a))
  done : ∀ d T x y z, TriAt tail head T x y z → D d T → V d T.top ≤ V (!d) T.bottom + V d T.mid

theorem VInv.toCus {tail head : List Nat} {A : ArcRel} {D : Bool → Tri → Prop} {V : Bool → Nat → Nat} (h : VInv tail head A D V) :
    CusInv tail head A (fun T => D true T ∧ D false T) (V true) (V false) :=
  ⟨fun a ha => ⟨h.le true a ha, h.le false a ha⟩, h.base, h.sound,
    fun T x y z hT hD => ⟨h.done true T x y z hT hD.1, h.done false T x y z hT hD.2⟩⟩

theorem CusInv.toV {tail head : List Nat} {A : ArcRel} {V : Bool → Nat → Nat} (h : CusInv tail head A (fun _ => False) (V true) (V false)) :
    VInv tail head A (fun _ _ => False) V :=
  ⟨fun d a ha => by cases d; exact (h.le a ha).2; exact (h.le a ha).1, h.base, h.sound, fun d T x y z _ h => h.elim⟩

theorem VInv.mono {tail head : List Nat} {A : ArcRel} {D D' : Bool → Tri → Prop} {V : Bool → Nat → Nat} (h : VInv tail head A D V)
    (hD : ∀ d T x y z, TriAt tail head T x y z → D' d T → D d T) : VInv tail head A D' V :=
  ⟨h.le, h.base, h.sound, fun d T x y z h1 h2 => h.done d T x y z h1 (hD d T x y z h1 h2)⟩

theorem VInv.step {n : Nat} {fo tail head : List Nat} (u : UpOk n fo head tail) {A : ArcRel} {D : Bool → Tri → Prop}
    {V : Bool → Nat → Nat} (h : VInv tail head A D V) {T0 : Tri} {x0 y0 z0 : Nat} (hT : TriAt tail head T0 x0 y0 z0) {d0 : Bool}
    (hlt : V (!d0) T0.bottom + V d0 T0.mid < V d0 T0.top) (hne0 : T0.bottom ≠ T0.top ∧ T0.mid ≠ T0.top)
    (hD : ∀ d T x y z, TriAt tail head T x y z → D d T → T.bottom ≠ T0.top ∧ T.mid ≠ T0.top) :
    VInv tail head A (fun d T => D d T ∨ (d = d0 ∧ T = T0)) (setCell V d0 T0.top (V (!d0) T0.bottom + V d0 T0.mid)) := by
  have hxy0 := (u.up x0 y0 ⟨T0.bottom, hT.bt, hT.bh⟩).1
  have hw := h.toCus.walk hT.bt hT.bh hT.mt hT.mh hxy0
  have hle : ∀ d a, setCell V d0 T0.top (V (!d0) T0.bottom + V d0 T0.mid) d a ≤ V d a := by
    intro d a
    unfold setCell
    split
    · rename_i q; rw [q.1, q.2]; omega
    · exact Nat.le_refl _
  refine ⟨fun d a ha => Nat.le_trans (hle d a) (h.le d a ha), ?_, ?_, ?_⟩
  · intro a x y hx hy i w
    exact ⟨fun hA => Nat.le_trans (hle _ _) ((h.base a x y hx hy i w).1 hA),
      fun hA => Nat.le_trans (hle _ _) ((h.base a x y hx hy i w).2 hA)⟩
  · intro a x y hx hy
    by_cases ha : a = T0.top
    · subst ha
      cases (hx.symm.trans hT.tt : some x = some y0)
      cases (hy.symm.trans hT.th : some y = some z0)
      cases d0 with
      | true =>
        rw [setCell_same, setCell_dir V _ (by simp : false ≠ true)]
        exact ⟨hw.1, (h.sound _ _ _ hx hy).2⟩
      | false =>
        rw [setCell_same, setCell_dir V _ (by simp : true ≠ false)]
        exact ⟨(h.sound _ _ _ hx hy).1, hw.2⟩
    · rw [setCell_ne V _ ha, setCell_ne V _ ha]
      exact h.sound a x y hx hy
  · intro d T x y z hT' hor
    rcases hor with hor | ⟨rfl, rfl⟩
    · obtain ⟨n1, n2⟩ := hD d T x y z hT' hor
      rw [setCell_ne V _ n1, setCell_ne V _ n2]
      exact Nat.le_trans (hle _ _) (h.done d T x y z hT' hor)
    · rw [setCell_same, setCell_ne V _ hne0.1, setCell_ne V _ hne0.2]

/-- What a task of level `L` has read is still up to date. -/
def RegOk (V : Bool → Nat → Nat) (t : Task) : Prop :=
  match t.reg with
  | .start => True
  | .seen => False
  | .loaded u => ∃ d T p, t.prog = .relax d T :: p ∧ u = V (!d) T.bottom
  | .sum y => ∃ d T p, t.prog = .relax d T :: p ∧ y = V (!d) T.bottom + V d T.mid
  | .cas y z => ∃ d T p, t.prog = .relax d T :: p ∧ y = V (!d) T.bottom + V d T.mid ∧ y < z

section
variable (tail head level : List Nat)

structure LevTask (L : Nat) (V : Bool → Nat → Nat) (t : Task) : Prop where
  instr : ∀ i ∈ t.prog, ∃ d T x y z, i = .relax d T ∧ TriAt tail head T x y z ∧ fn level x = L
  reg : RegOk V t

/-- The relaxations that are done: those of lower levels and those of this level that are in no task. -/
def DoneAt (L : Nat) (ts : List Task) (d : Bool) (T : Tri) : Prop :=
  fn level (fn tail T.bottom) < L ∨ (fn level (fn tail T.bottom) = L ∧ ∀ t ∈ ts, Instr.relax d T ∉ t.prog)

structure LevInv (A : ArcRel) (L : Nat) (V : Bool → Nat → Nat) (ts : List Task) : Prop where
  inv : VInv tail head A (DoneAt tail level L ts) V
  tasks : ∀ t ∈ ts, LevTask tail head level L V t

end

theorem mem_set_of {ts : List Task} {i : Nat} {t t' u : Task} (hi : rd ts i = some t) (hu : u ∈ ts) (hne : u ≠ t) : u ∈ ts.set i t' := by
  obtain ⟨j, hj⟩ := mem_iff_rd.1 hu
  have hji : j ≠ i := by
    rintro rfl
    exact hne (Option.some.inj (hj.symm.trans hi))
  apply mem_iff_rd.2
  exact ⟨j, by rw [rd_set (rd_some_lt hi), if_neg hji]; exact hj⟩

theorem mem_set_new {ts : List Task} {i : Nat} {t t' : Task} (hi : rd ts i = some t) : t' ∈ ts.set i t' :=
  mem_iff_rd.2 ⟨i, by rw [rd_set (rd_some_lt hi), if_pos rfl]⟩

theorem mem_set_cases {ts : List Task} {i : Nat} {t' u : Task} (hu : u ∈ ts.set i t') : u = t' ∨ u ∈ ts := by
  rcases List.mem_or_eq_of_mem_set hu with h | h
  · exact Or.inr h
  · exact Or.inl h

/-- Removing a finished relaxation from a task. -/
theorem doneAt_pop {tail level : List Nat} {L : Nat} {ts : List Task} {i : Nat} {d0 : Bool} {T0 : Tri} {p : List Instr} {r r' : Reg}
    (hi : rd ts i = some ⟨.relax d0 T0 :: p, r⟩) {d : Bool} {T : Tri} (h : DoneAt tail level L (ts.set i ⟨p, r'⟩) d T) :
    DoneAt tail level L ts d T ∨ (d = d0 ∧ T = T0) := by
  rcases h with h | ⟨h1, h2⟩
  · exact Or.inl (Or.inl h)
  · by_cases he : d = d0 ∧ T = T0
    · exact Or.inr he
    · refine Or.inl (Or.inr ⟨h1, ?_⟩)
      intro t ht hin
      by_cases hte : t = ⟨.relax d0 T0 :: p, r⟩
      · subst hte
        rcases List.mem_cons.1 hin with h | h
        · injection h with q1 q2; exact he ⟨q1, q2⟩
        · exact h2 _ (mem_set_new hi) h
      · exact h2 t (mem_set_of hi ht hte) hin

/-- A step that keeps the program of the task. -/
theorem doneAt_same {tail level : List Nat} {L : Nat} {ts : List Task} {i : Nat} {p : List Instr} {r r' : Reg}
    (hi : rd ts i = some ⟨p, r⟩) {d : Bool} {T : Tri} (h : DoneAt tail level L (ts.set i ⟨p, r'⟩) d T) :
    DoneAt tail level L ts d T := by
  rcases h with h | ⟨h1, h2⟩
  · exact Or.inl h
  · refine Or.inr ⟨h1, ?_⟩
    intro t ht hin
    by_cases hte : t = ⟨p, r⟩
    · subst hte
      exact h2 _ (mem_set_new hi) hin
    · exact h2 t (mem_set_of hi ht hte) hin

theorem LevInv.step {n cnt : Nat} {c : Cch} (g : c.GraphOk n) {level : List Nat} (hl : LevelsOk n c level cnt) {A : ArcRel} {L : Nat}
    {V : Bool → Nat → Nat} {m : Metric} (hm : CellsIs m c.upTail.length V) {ts : List Task}
    (h : LevInv c.upTail c.upHead level A L V ts) {i : Nat} {t : Task} (hi : rd ts i = some t) (hne : t.prog ≠ []) :
    ∃ m' t' V', stepTask m t = some (m', t') ∧ CellsIs m' c.upTail.length V' ∧
      LevInv c.upTail c.upHead level A L V' (ts.set i t') := by
  have hinf : infWeight = 2147483647 := rfl
  obtain ⟨prog, reg⟩ := t
  have ht := h.tasks _ (mem_iff_rd.2 ⟨i, hi⟩)
  obtain ⟨hins, hreg⟩ := ht
  simp only at hins hne
  cases prog with
  | nil => exact absurd rfl hne
  | cons ins p =>
    obtain ⟨d, T, x, y, z, rfl, hT, hx⟩ := hins ins (List.mem_cons_self ..)
    have hp : ∀ j ∈ p, ∃ d T x y z, j = Instr.relax d T ∧ TriAt c.upTail c.upHead T x y z ∧ fn level x = L :=
      fun j hj => hins j (List.mem_cons_of_mem _ hj)
    have b1 := rd_some_lt hT.bt
    have b2 := rd_some_lt hT.mt
    have b3 := rd_some_lt hT.tt
    have s1 := h.inv.le (!d) _ b1
    have s2 := h.inv.le d _ b2
    have hadd : add32 (V (!d) T.bottom) (V d T.mid) = V (!d) T.bottom + V d T.mid := by
      unfold add32 u32; omega
    -- steps that do not change the weights and keep the program
    have keep : ∀ r', RegOk V ⟨.relax d T :: p, r'⟩ →
        LevInv c.upTail c.upHead level A L V (ts.set i ⟨.relax d T :: p, r'⟩) := by
      intro r' hr'
      refine ⟨h.inv.mono fun d' T' _ _ _ _ hD => doneAt_same hi hD, ?_⟩
      intro u hu
      rcases mem_set_cases hu with rfl | hu
      · exact ⟨hins, hr'⟩
      · exact h.tasks u hu
    cases reg with
    | seen => exact hreg.elim
    | start =>
      refine ⟨m, ⟨.relax d T :: p, .loaded (V (!d) T.bottom)⟩, V, ?_, hm, keep _ ⟨d, T, p, rfl, rfl⟩⟩
      unfold stepTask
      simp only [hm.rd (!d) b1, Option.bind_eq_bind, Option.bind_some]
    | loaded u =>
      obtain ⟨d', T', p', e, hu⟩ := hreg
      cases e
      subst hu
      refine ⟨m, ⟨.relax d T :: p, .sum (V (!d) T.bottom + V d T.mid)⟩, V, ?_, hm, keep _ ⟨d, T, p, rfl, rfl⟩⟩
      unfold stepTask
      simp only [hm.rd d b2, hadd, Option.bind_eq_bind, Option.bind_some]
    | sum s =>
      obtain ⟨d', T', p', e, hs⟩ := hreg
      cases e
      refine ⟨m, if s < V d T.top then ⟨.relax d T :: p, .cas s (V d T.top)⟩ else ⟨p, .start⟩, V, ?_, hm, ?_⟩
      · unfold stepTask
        simp only [hm.rd d b3, Option.bind_eq_bind, Option.bind_some]
      · by_cases hlt : s < V d T.top
        · rw [if_pos hlt]
          exact keep _ ⟨d, T, p, rfl, hs, hlt⟩
        · rw [if_neg hlt]
          refine ⟨⟨h.inv.le, h.inv.base, h.inv.sound, ?_⟩, ?_⟩
          · intro d' T' x' y' z' hT' hD
            rcases doneAt_pop hi hD with hD | ⟨rfl, rfl⟩
            · exact h.inv.done d' T' x' y' z' hT' hD
            · omega
          · intro u hu
            rcases mem_set_cases hu with rfl | hu
            · exact ⟨hp, trivial⟩
            · exact h.tasks u hu
    | cas s zz =>
      obtain ⟨d', T', p', e, hs, hlt⟩ := hreg
      cases e
      by_cases hcas : V d T.top = zz
      · obtain ⟨m', em, hm'⟩ := hm.wr d b3 s
        refine ⟨m', ⟨p, .start⟩, setCell V d T.top s, ?_, hm', ?_⟩
        · unfold stepTask
          simp only [hm.rd d b3, if_pos hcas, em, Option.bind_eq_bind, Option.bind_some]
        · -- the top arc starts at a higher level
          have htop : ∀ a x', rd c.upTail a = some x' → fn level x' ≤ L → a ≠ T.top := by
            rintro a x' ha hx' rfl
            cases (ha.symm.trans hT.tt : some x' = some y)
            have := hl.mono T.bottom x y hT.bt hT.bh
            omega
          have hns : ∀ {T' : Tri} {x' y' z' : Nat}, TriAt c.upTail c.upHead T' x' y' z' → fn level x' ≤ L →
              T'.bottom ≠ T.top ∧ T'.mid ≠ T.top := fun hT' hx' => ⟨htop _ _ hT'.bt hx', htop _ _ hT'.mt hx'⟩
          have hself := hns hT (by omega)
          have hstep := h.inv.step g.up hT (d0 := d) (by omega) hself (by
            intro d' T' x' y' z' hT' hD
            refine hns hT' ?_
            rcases hD with hD | ⟨hD, _⟩ <;> rw [fn_of_rd hT'.bt] at hD <;> omega)
          rw [← hs] at hstep
          refine ⟨hstep.mono fun d' T' _ _ _ _ hD => doneAt_pop hi hD, ?_⟩
          intro u hu
          rcases mem_set_cases hu with rfl | hu
          · exact ⟨hp, trivial⟩
          · obtain ⟨q1, q2⟩ := h.tasks u hu
            refine ⟨q1, ?_⟩
            obtain ⟨up, ur⟩ := u
            have stable : ∀ {d' : Bool} {T' : Tri} {p' : List Instr}, up = .relax d' T' :: p' →
                setCell V d T.top s (!d') T'.bottom = V (!d') T'.bottom ∧ setCell V d T.top s d' T'.mid = V d' T'.mid := by
              rintro d' T' p' rfl
              obtain ⟨d'', T'', x', y', z', e, hT', hx'⟩ := q1 _ (List.mem_cons_self ..)
              cases e
              obtain ⟨n1, n2⟩ := hns hT' (by omega)
              exact ⟨setCell_ne V _ n1, setCell_ne V _ n2⟩
            cases ur with
            | start => trivial
            | seen => exact q2
            | loaded v =>
              obtain ⟨d', T', p', e, hv⟩ := q2
              exact ⟨d', T', p', e, by rw [(stable e).1]; exact hv⟩
            | sum v =>
              obtain ⟨d', T', p', e, hv⟩ := q2
              exact ⟨d', T', p', e, by rw [(stable e).1, (stable e).2]; exact hv⟩
            | cas v v' =>
              obtain ⟨d', T', p', e, hv, hv'⟩ := q2
              exact ⟨d', T', p', e, by rw [(stable e).1, (stable e).2]; exact hv, hv'⟩
      · refine ⟨m, ⟨.relax d T :: p, .sum s⟩, V, ?_, hm, keep _ ⟨d, T, p, rfl, hs⟩⟩
        unfold stepTask
        simp only [hm.rd d b3, if_neg hcas, Option.bind_eq_bind, Option.bind_some]
end RK
