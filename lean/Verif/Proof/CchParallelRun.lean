import Verif.Proof.CchParallel
import Mathlib.Data.Prod.Lex
import Mathlib.Order.WellFounded
/-! Helper lemmas: whole executions of the parallel customization. -/
namespace RK
open Spec

/-! ### Every execution is finite -/

/-- The number of accesses that the current instruction needs if no other task interferes. -/
def regWeight (m : Metric) (t : Task) : Nat :=
  match t.reg with
  | .start => 5
  | .seen => 4
  | .loaded _ => 4
  | .sum _ => 3
  | .cas _ z =>
    match t.prog with
    | .relax d T :: _ => if rd (m.side d) T.top = some z then 2 else 4
    | _ => 4

def instrCount (ts : List Task) : Nat := (ts.map fun t => t.prog.length).sum
def weightSum (m : Metric) (ts : List Task) : Nat := (ts.map (regWeight m)).sum

def poolMeasure (s : Pool) : Nat ×ₗ Nat ×ₗ Nat :=
  toLex (s.phases.length, toLex (instrCount s.tasks, weightSum s.mem s.tasks))

theorem sum_set {f : Task → Nat} : ∀ {ts : List Task} {i : Nat} {t t' : Task}, rd ts i = some t →
    ((ts.set i t').map f).sum + f t = (ts.map f).sum + f t'
  | [], i, t, t', h => by simp [rd] at h
  | u :: ts, 0, t, t', h => by
    simp [rd] at h
    subst h
    simp; omega
  | u :: ts, i + 1, t, t', h => by
    have := sum_set (f := f) (ts := ts) (i := i) (t := t) (t' := t') (by simpa [rd] using h)
    simp only [List.set_cons_succ, List.map_cons, List.sum_cons]
    omega

/-- A step either finishes an instruction or gets closer to it and leaves the weights unchanged. -/
theorem stepTask_measure {m m' : Metric} {t t' : Task} (h : stepTask m t = some (m', t')) :
    t'.prog.length < t.prog.length ∨ (t'.prog.length = t.prog.length ∧ m' = m ∧ regWeight m t' < regWeight m t) := by
  match t, h with
  | ⟨.store d a v :: p, .start⟩, h =>
    obtain ⟨m1, _, h⟩ := Option.bind_eq_some_iff.1 h
    cases h
    exact Or.inl (by simp)
  | ⟨.minStore d a v :: p, .start⟩, h =>
    obtain ⟨x, _, h⟩ := Option.bind_eq_some_iff.1 h
    cases h
    split
    · exact Or.inr ⟨rfl, rfl, by simp [regWeight]⟩
    · exact Or.inl (by simp)
  | ⟨.minStore d a v :: p, .seen⟩, h =>
    obtain ⟨m1, _, h⟩ := Option.bind_eq_some_iff.1 h
    cases h
    exact Or.inl (by simp)
  | ⟨.relax d T :: p, .start⟩, h =>
    obtain ⟨x, _, h⟩ := Option.bind_eq_some_iff.1 h
    cases h
    exact Or.inr ⟨rfl, rfl, by simp [regWeight]⟩
  | ⟨.relax d T :: p, .loaded u⟩, h =>
    obtain ⟨x, _, h⟩ := Option.bind_eq_some_iff.1 h
    cases h
    exact Or.inr ⟨rfl, rfl, by simp [regWeight]⟩
  | ⟨.relax d T :: p, .sum y⟩, h =>
    obtain ⟨x, hx, h⟩ := Option.bind_eq_some_iff.1 h
    cases h
    split
    · exact Or.inr ⟨rfl, rfl, by simp [regWeight, hx]⟩
    · exact Or.inl (by simp)
  | ⟨.relax d T :: p, .cas y z⟩, h =>
    obtain ⟨x, hx, h⟩ := Option.bind_eq_some_iff.1 h
    by_cases hz : x = z
    · rw [if_pos hz] at h
      obtain ⟨m1, _, h⟩ := Option.bind_eq_some_iff.1 h
      cases h
      exact Or.inl (by simp)
    · rw [if_neg hz] at h
      cases h
      exact Or.inr ⟨rfl, rfl, by simp [regWeight, hx, hz]⟩

theorem parStep_measure {s s' : Pool} (h : ParStep s s') : poolMeasure s' < poolMeasure s := by
  cases h with
  | @task m m' ts ph i t t' hi hs =>
    unfold poolMeasure
    rw [Prod.Lex.lt_iff]
    refine Or.inr ⟨rfl, ?_⟩
    have hc := sum_set (f := fun t => t.prog.length) (t' := t') hi
    show toLex (instrCount (ts.set i t'), weightSum m' (ts.set i t')) < toLex (instrCount ts, weightSum m ts)
    rw [Prod.Lex.lt_iff]
    rcases stepTask_measure hs with h | ⟨h1, rfl, h3⟩
    · refine Or.inl ?_
      show instrCount (ts.set i t') < instrCount ts
      unfold instrCount
      omega
    · refine Or.inr ⟨?_, ?_⟩
      · show instrCount (ts.set i t') = instrCount ts
        unfold instrCount
        omega
      · show weightSum m' (ts.set i t') < weightSum m' ts
        have hw := sum_set (f := regWeight m') (t' := t') hi
        unfold weightSum
        omega
  | @barrier m ts p ph _ =>
    unfold poolMeasure
    rw [Prod.Lex.lt_iff]
    exact Or.inl (show ph.length < ph.length + 1 by omega)

theorem parStep_wf : WellFounded fun s' s => ParStep s s' :=
  Subrelation.wf (fun h => parStep_measure h) (InvImage.wf poolMeasure (wellFounded_lt))

/-! ### The invariant of all executions -/

section
variable {n cnt : Nat} {rt rh : List Nat} {c : Cch} {U : List Bool} {w level : List Nat}

/-- The iterations of the levels: all relaxations of the level and nothing else. -/
structure LevelsProg (c : Cch) (level : List Nat) (cnt : Nat) (levels : List (List (List Instr))) : Prop where
  len : levels.length = cnt
  instr : ∀ l ps, rd levels l = some ps → ∀ p ∈ ps, ∀ i ∈ p,
    ∃ d T x y z, i = Instr.relax d T ∧ TriAt c.upTail c.upHead T x y z ∧ fn level x = l
  all : ∀ l ps, rd levels l = some ps → ∀ d T x y z, TriAt c.upTail c.upHead T x y z → fn level x = l →
    ∃ p ∈ ps, Instr.relax d T ∈ p

theorem relaxProg_spec (g : c.GraphOk n) {a x y : Nat} (hx : rd c.upTail a = some x) (hy : rd c.upHead a = some y) :
    ∃ p, relaxProg c a = some p ∧
      ∀ i, i ∈ p ↔ ∃ d T z, i = Instr.relax d T ∧ T.bottom = a ∧ TriAt c.upTail c.upHead T x y z := by
  obtain ⟨l, e, hl⟩ := upperTriangles_spec g.up hx hy
  unfold relaxProg
  simp only [e, Option.bind_eq_bind, Option.bind_some]
  refine ⟨_, rfl, ?_⟩
  intro i
  rw [List.mem_flatMap]
  constructor
  · rintro ⟨T, hT, hi⟩
    obtain ⟨h1, z, h2⟩ := (hl T).1 hT
    simp at hi
    rcases hi with rfl | rfl
    · exact ⟨true, T, z, rfl, h1, h2⟩
    · exact ⟨false, T, z, rfl, h1, h2⟩
  · rintro ⟨d, T, z, rfl, h1, h2⟩
    refine ⟨T, (hl T).2 ⟨h1, z, h2⟩, ?_⟩
    cases d <;> simp

theorem levelTasks_spec (g : c.GraphOk n) {par : Parallelization} (hp : ParOk n c par level cnt) {l : Nat} (hl : l < cnt) :
    ∃ ps, levelTasks c par l = some ps ∧
      (∀ p ∈ ps, ∀ i ∈ p, ∃ d T x y z, i = Instr.relax d T ∧ TriAt c.upTail c.upHead T x y z ∧ fn level x = l) ∧
      ∀ d T x y z, TriAt c.upTail c.upHead T x y z → fn level x = l → ∃ p ∈ ps, Instr.relax d T ∈ p := by
  have hlen := g.up.sorted.1
  obtain ⟨lo, hi, e1, e2, h1, h2⟩ := hp.row l hl
  unfold levelTasks
  simp only [e1, e2, Option.bind_eq_bind, Option.bind_some]
  have key : ∀ i ∈ List.range' lo (hi - lo), ∃ a x y p, rd par.arcsByLevel i = some a ∧ rd c.upTail a = some x ∧
      rd c.upHead a = some y ∧ fn level x = l ∧ relaxProg c a = some p ∧
      ∀ i, i ∈ p ↔ ∃ d T z, i = Instr.relax d T ∧ T.bottom = a ∧ TriAt c.upTail c.upHead T x y z := by
    intro i hi'
    rw [List.mem_range'_1] at hi'
    obtain ⟨a, x, q1, q2, q3⟩ := h1 i hi'.1 (by omega)
    obtain ⟨y, hy⟩ := rd_isSome (v := c.upHead) (i := a) (by have := rd_some_lt q2; omega)
    obtain ⟨p, ep, hp⟩ := relaxProg_spec g q2 hy
    exact ⟨a, x, y, p, q1, q2, hy, q3, ep, hp⟩
  obtain ⟨ps, e, _, _, hmem⟩ := mapM_spec (l := List.range' lo (hi - lo))
    (f := fun i => (rd par.arcsByLevel i).bind fun a => relaxProg c a) (by
      intro i hi'
      obtain ⟨a, x, y, p, q1, _, _, _, q5, _⟩ := key i hi'
      exact ⟨p, by simp only [q1, Option.bind_some]; exact q5⟩)
  refine ⟨ps, e, ?_, ?_⟩
  · intro p hp' i hi'
    obtain ⟨j, hj, ej⟩ := (hmem p).1 hp'
    obtain ⟨a, x, y, p', q1, _, _, q4, q5, q6⟩ := key j hj
    simp only [q1, Option.bind_some, q5, Option.some.injEq] at ej
    subst ej
    obtain ⟨d, T, z, r1, _, r3⟩ := (q6 i).1 hi'
    exact ⟨d, T, x, y, z, r1, r3, q4⟩
  · intro d T x y z hT hx
    obtain ⟨i, r1, r2, r3⟩ := h2 T.bottom x hT.bt hx
    have hin : i ∈ List.range' lo (hi - lo) := by rw [List.mem_range'_1]; omega
    obtain ⟨a, x', y', p', q1, q2, q3, _, q5, q6⟩ := key i hin
    cases (q1.symm.trans r3 : some a = some T.bottom)
    cases (q2.symm.trans hT.bt : some x' = some x)
    cases (q3.symm.trans hT.bh : some y' = some y)
    exact ⟨p', (hmem p').2 ⟨i, hin, by simp only [q1, Option.bind_some]; exact q5⟩, (q6 _).2 ⟨d, T, z, rfl, rfl, hT⟩⟩

/-- The invariant of the extraction. -/
def ExtInv (c : Cch) (rt rh w : List Nat) (V : Bool → Nat → Nat) (ts : List Task) : Prop :=
  ts.length = c.upTail.length ∧ ∀ a t, rd ts a = some t → ∃ res, ExtTask V a t res ∧
    ∀ x y, rd c.upTail a = some x → rd c.upHead a = some y →
      IsMinArc (listArcs rt rh w) x y (res true) ∧ IsMinArc (listArcs rt rh w) y x (res false)

theorem parallelPhases_spec (h : CchOk n rt rh c U) (hwl : w.length = rt.length) (hw : WeightsOk w) {par : Parallelization}
    (hp : ParOk n c par level cnt) {m : Metric} (l1 : m.forward.length = c.upTail.length) (l2 : m.backward.length = c.upTail.length) :
    ∃ init levels, parallelPhases c w par = some (init :: levels) ∧ LevelsProg c level cnt levels ∧
      ∃ V, CellsIs m c.upTail.length V ∧ ExtInv c rt rh w V (init.map fun q => ⟨q, .start⟩) := by
  have g := h.graph
  have hlen := g.up.sorted.1
  have hm := metric_is l1 l2
  let V : Bool → Nat → Nat := fun d => if d then fn m.forward else fn m.backward
  have hV : CellsIs m c.upTail.length V := hm
  have key : ∀ a, a < c.upTail.length → ∃ p, extractProg c w a = some p ∧ ∃ res, ExtTask V a ⟨p, .start⟩ res ∧
      ∀ x y, rd c.upTail a = some x → rd c.upHead a = some y →
        IsMinArc (listArcs rt rh w) x y (res true) ∧ IsMinArc (listArcs rt rh w) y x (res false) := by
    intro a ha
    obtain ⟨x, hx⟩ := rd_isSome (v := c.upTail) ha
    obtain ⟨y, hy⟩ := rd_isSome (v := c.upHead) (i := a) (by omega)
    obtain ⟨m', v, u, e, q1, q2, q3⟩ := extractArc_spec h hwl hw hm hx hy
    obtain ⟨p, ep, hloc, hrun⟩ := extractProg_of e
    obtain ⟨m'', e', hm''⟩ := runProg_spec ha p hV hloc
    cases (hrun.symm.trans e' : some m' = some m'')
    refine ⟨p, ep, _, ⟨hloc, Or.inl rfl, rfl⟩, ?_⟩
    intro x' y' hx' hy'
    cases (hx'.symm.trans hx : some x' = some x)
    cases (hy'.symm.trans hy : some y' = some y)
    have r1 := rd_congr_some (hm''.fwd a ha) (q1.fwd a ha)
    have r2 := rd_congr_some (hm''.bwd a ha) (q1.bwd a ha)
    rw [setAt_same] at r1 r2
    have r1' : p.foldl evalI (fun d => V d a) true = v := by
      rw [← r1]; simp [setCells]
    have r2' : p.foldl evalI (fun d => V d a) false = u := by
      rw [← r2]; simp [setCells]
    rw [r1', r2']
    exact ⟨q2, q3⟩
  obtain ⟨init, e1, hl1, hi1, _⟩ := mapM_spec (l := List.range c.upTail.length) (f := extractProg c w) (by
    intro a ha
    obtain ⟨p, ep, _⟩ := key a (List.mem_range.1 ha)
    exact ⟨p, ep⟩)
  obtain ⟨levels, e2, hl2, hi2, _⟩ := mapM_spec (l := List.range cnt) (f := levelTasks c par) (by
    intro l hl
    obtain ⟨ps, e, _⟩ := levelTasks_spec g hp (List.mem_range.1 hl)
    exact ⟨ps, e⟩)
  have hrange : ∀ {k i : Nat}, i < k → rd (List.range k) i = some i := by
    intro k i hi; unfold rd; rw [List.getElem?_range hi]
  have hlev : ∀ l ps, rd levels l = some ps → l < cnt ∧ levelTasks c par l = some ps := by
    intro l ps hps
    have hlt := rd_some_lt hps
    rw [hl2, List.length_range] at hlt
    exact ⟨hlt, by rw [← hi2 l l (hrange hlt)]; exact hps⟩
  have hcount : c.cchArcCount = c.upTail.length := hlen.symm
  refine ⟨init, levels, ?_, ⟨by rw [hl2, List.length_range], ?_, ?_⟩, V, hV, ?_, ?_⟩
  · unfold parallelPhases
    rw [hp.len, hcount, e1]
    simp only [Nat.add_sub_cancel, e2]
    rfl
  · intro l ps hps
    obtain ⟨hlt, e⟩ := hlev l ps hps
    obtain ⟨ps', e', h1, _⟩ := levelTasks_spec g hp hlt
    cases (e.symm.trans e' : some ps = some ps')
    exact h1
  · intro l ps hps
    obtain ⟨hlt, e⟩ := hlev l ps hps
    obtain ⟨ps', e', _, h2⟩ := levelTasks_spec g hp hlt
    cases (e.symm.trans e' : some ps = some ps')
    exact h2
  · rw [List.length_map, hl1, List.length_range]
  · intro a t ht
    unfold rd at ht
    rw [List.getElem?_map, Option.map_eq_some_iff] at ht
    obtain ⟨p, hp', rfl⟩ := ht
    have hlt := rd_some_lt (v := init) hp'
    rw [hl1, List.length_range] at hlt
    obtain ⟨p', ep', rest⟩ := key a hlt
    have : p = p' := by
      have := hi1 a a (hrange hlt)
      rw [ep'] at this
      exact Option.some.inj ((show rd init a = some p from hp').symm.trans this)
    subst this
    exact rest

/-- Everything up to level `L` (exclusive) is done. -/
def Ready (c : Cch) (rt rh w level : List Nat) (L : Nat) (V : Bool → Nat → Nat) : Prop :=
  VInv c.upTail c.upHead (listArcs rt rh w) (fun _ T => fn level (fn c.upTail T.bottom) < L) V

theorem ExtInv.ready (g : c.GraphOk n) {V : Bool → Nat → Nat} {ts : List Task} (h : ExtInv c rt rh w V ts)
    (hdone : ∀ t ∈ ts, t.prog = []) : Ready c rt rh w level 0 V := by
  have hlen := g.up.sorted.1
  have : CusInv c.upTail c.upHead (listArcs rt rh w) (fun _ => False) (V true) (V false) := by
    apply CusInv.of_init hlen
    intro a ha x y hx hy
    obtain ⟨t, ht⟩ := rd_isSome (v := ts) (i := a) (by have := h.1; omega)
    obtain ⟨res, h1, h2⟩ := h.2 a t ht
    have hv := h1.val
    rw [hdone t (mem_iff_rd.2 ⟨a, ht⟩)] at hv
    have hv' : (fun d => V d a) = res := hv
    subst hv'
    exact h2 x y hx hy
  exact this.toV.mono fun d T x y z _ h => by omega

theorem LevInv.ready {V : Bool → Nat → Nat} {ts : List Task} {L : Nat} (h : LevInv c.upTail c.upHead level (listArcs rt rh w) L V ts)
    (hdone : ∀ t ∈ ts, t.prog = []) : Ready c rt rh w level (L + 1) V := by
  refine h.inv.mono fun d T x y z _ hD => ?_
  rcases Nat.lt_or_ge (fn level (fn c.upTail T.bottom)) L with h | h
  · exact Or.inl h
  · refine Or.inr ⟨by omega, fun t ht hin => ?_⟩
    rw [hdone t ht] at hin
    simp at hin

theorem Ready.start {V : Bool → Nat → Nat} {L : Nat} (h : Ready c rt rh w level L V) {levels : List (List (List Instr))}
    (hp : LevelsProg c level cnt levels) {ps : List (List Instr)} (hps : rd levels L = some ps) :
    LevInv c.upTail c.upHead level (listArcs rt rh w) L V (ps.map fun q => ⟨q, .start⟩) := by
  constructor
  · refine VInv.mono h fun d T x y z hT hD => ?_
    rcases hD with hD | ⟨hD, hno⟩
    · exact hD
    · rw [fn_of_rd hT.bt] at hD
      obtain ⟨p, hp1, hp2⟩ := hp.all L ps hps d T x y z hT hD
      exact absurd hp2 (hno ⟨p, .start⟩ (List.mem_map.2 ⟨p, hp1, rfl⟩))
  · intro t ht
    obtain ⟨p, hp1, rfl⟩ := List.mem_map.1 ht
    exact ⟨hp.instr L ps hps p hp1, trivial⟩

/-- The invariant of the whole execution. -/
inductive PoolInv (c : Cch) (rt rh w level : List Nat) (m : Metric) (init : List (List Instr)) (levels : List (List (List Instr))) :
    Pool → Prop
  | before : PoolInv c rt rh w level m init levels ⟨m, [], init :: levels⟩
  | extract {m' : Metric} {V : Bool → Nat → Nat} {ts : List Task} : CellsIs m' c.upTail.length V → ExtInv c rt rh w V ts →
      PoolInv c rt rh w level m init levels ⟨m', ts, levels⟩
  | level {m' : Metric} {V : Bool → Nat → Nat} {ts : List Task} {L : Nat} : CellsIs m' c.upTail.length V →
      LevInv c.upTail c.upHead level (listArcs rt rh w) L V ts →
      PoolInv c rt rh w level m init levels ⟨m', ts, levels.drop (L + 1)⟩

theorem drop_eq_cons {α : Type} {l : List α} {k : Nat} {x : α} {r : List α} (h : x :: r = l.drop k) : rd l k = some x ∧ r = l.drop (k + 1) := by
  have h1 : (l.drop k)[0]? = some x := by rw [← h]; rfl
  constructor
  · rw [List.getElem?_drop] at h1
    exact h1
  · have := congrArg (List.drop 1) h
    simp only [List.drop_succ_cons, List.drop_zero, List.drop_drop] at this
    exact this

/-- Every task of every reachable state can go on, and the invariant is preserved. -/
theorem PoolInv.task (h : CchOk n rt rh c U) (hl : LevelsOk n c level cnt) {m : Metric} {init : List (List Instr)}
    {levels : List (List (List Instr))} {s : Pool} (hs : PoolInv c rt rh w level m init levels s) {i : Nat} {t : Task}
    (hi : rd s.tasks i = some t) (hne : t.prog ≠ []) :
    ∃ m' t', stepTask s.mem t = some (m', t') ∧ PoolInv c rt rh w level m init levels ⟨m', s.tasks.set i t', s.phases⟩ := by
  cases hs with
  | before => simp [rd] at hi
  | @extract m1 V ts hV hx =>
    have hlt := rd_some_lt hi
    obtain ⟨res, h1, h2⟩ := hx.2 i t hi
    obtain ⟨m', t', V', e, q1, q2, q3⟩ := h1.step hV (by rw [← hx.1]; exact hlt) hne
    refine ⟨m', t', e, .extract q1 ⟨by simpa using hx.1, ?_⟩⟩
    intro a u hu
    rw [rd_set hlt] at hu
    by_cases ha : a = i
    · rw [if_pos ha] at hu
      cases hu
      subst ha
      exact ⟨res, q2, h2⟩
    · rw [if_neg ha] at hu
      obtain ⟨res', h1', h2'⟩ := hx.2 a u hu
      exact ⟨res', h1'.congr fun d => q3 d a ha, h2'⟩
  | @level m1 V ts L hV hx =>
    obtain ⟨m', t', V', e, q1, q2⟩ := hx.step h.graph hl hV hi hne
    exact ⟨m', t', e, .level q1 q2⟩

theorem PoolInv.step (h : CchOk n rt rh c U) (hl : LevelsOk n c level cnt) {m : Metric} {init : List (List Instr)}
    {levels : List (List (List Instr))} (hp : LevelsProg c level cnt levels) {V0 : Bool → Nat → Nat} (hV0 : CellsIs m c.upTail.length V0)
    (hx0 : ExtInv c rt rh w V0 (init.map fun q => ⟨q, .start⟩)) {s s' : Pool}
    (hs : PoolInv c rt rh w level m init levels s) (hstep : ParStep s s') : PoolInv c rt rh w level m init levels s' := by
  cases hstep with
  | @task m1 m2 ts ph i t t' hi he =>
    have hne : t.prog ≠ [] := by
      intro h0
      obtain ⟨p, r⟩ := t
      simp only at h0
      subst h0
      unfold stepTask at he
      simp at he
    obtain ⟨m', t'', e, hinv⟩ := hs.task h hl hi hne
    have : some (m', t'') = some (m2, t') := e.symm.trans he
    cases this
    exact hinv
  | @barrier m1 ts p ph hdone =>
    generalize hsE : (⟨m1, ts, p :: ph⟩ : Pool) = s0 at hs
    cases hs with
    | before =>
      cases hsE
      exact .extract hV0 hx0
    | @extract m2 V ts' hV hx =>
      injection hsE with e1 e2 e3
      subst e2
      have hr : Ready c rt rh w level 0 V := hx.ready h.graph hdone
      obtain ⟨q1, q2⟩ := drop_eq_cons (k := 0) (l := levels) (x := p) (r := ph) (by simpa using e3)
      subst e1
      rw [q2]
      exact .level hV (hr.start hp q1)
    | @level m2 V ts' L hV hx =>
      injection hsE with e1 e2 e3
      subst e2
      have hr : Ready c rt rh w level (L + 1) V := hx.ready hdone
      obtain ⟨q1, q2⟩ := drop_eq_cons e3
      subst e1
      rw [q2]
      exact .level hV (hr.start hp q1)

theorem Ready.final (g : c.GraphOk n) (hl : LevelsOk n c level cnt) {V : Bool → Nat → Nat} {L : Nat} (h : Ready c rt rh w level L V)
    (hL : cnt ≤ L) : CusInv c.upTail c.upHead (listArcs rt rh w) (fun _ => True) (V true) (V false) := by
  refine h.toCus.mono fun T x y z hT _ => ?_
  have := hl.lt x (g.up.tail_lt x (mem_iff_rd.2 ⟨_, hT.bt⟩))
  have h' : fn level (fn c.upTail T.bottom) < L := by rw [fn_of_rd hT.bt]; omega
  exact ⟨h', h'⟩

/-- When everything is finished, all triangles are relaxed. -/
theorem PoolInv.final (h : CchOk n rt rh c U) (hl : LevelsOk n c level cnt) {m : Metric} {init : List (List Instr)}
    {levels : List (List (List Instr))} (hp : LevelsProg c level cnt levels) {s : Pool}
    (hs : PoolInv c rt rh w level m init levels s) (hf : s.finished) :
    ∃ V, CellsIs s.mem c.upTail.length V ∧ CusInv c.upTail c.upHead (listArcs rt rh w) (fun _ => True) (V true) (V false) := by
  obtain ⟨h1, h2⟩ := hf
  have hlen := hp.len
  cases hs with
  | before => simp at h1
  | @extract m1 V ts hV hx =>
    simp only at h1
    subst h1
    exact ⟨V, hV, Ready.final h.graph hl (hx.ready (level := level) h.graph h2) (by simp at hlen; omega)⟩
  | @level m1 V ts L hV hx =>
    simp only at h1
    rw [List.drop_eq_nil_iff] at h1
    exact ⟨V, hV, Ready.final h.graph hl (hx.ready h2) (by omega)⟩

end

theorem ParReach.trans {s t u : Pool} (h1 : ParReach s t) (h2 : ParReach t u) : ParReach s u := by
  induction h2 with
  | refl => exact h1
  | step _ h ih => exact .step ih h

/-- A state in which no step is possible can be reached from everywhere. -/
theorem parReach_stuck (s : Pool) : ∃ t, ParReach s t ∧ ∀ u, ¬ ParStep t u := by
  induction s using parStep_wf.induction with
  | _ s ih =>
    by_cases h : ∃ u, ParStep s u
    · obtain ⟨u, hu⟩ := h
      obtain ⟨t, h1, h2⟩ := ih u hu
      exact ⟨t, (ParReach.step .refl hu).trans h1, h2⟩
    · exact ⟨s, .refl, fun u hu => h ⟨u, hu⟩⟩

end RK
