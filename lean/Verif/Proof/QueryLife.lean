import Verif.Model.QueryLife
import Verif.Proof.History
/-! # Proofs about programs with several hierarchies and query objects -/
namespace RK
open _root_.Spec

/-- Only `reset(new_ch)` changes the hierarchy. -/
theorem chCall_same_ch {q q' : ChQuery} {op : QOp Ch} {out : QOut} (h : chCall q op = some (q', out))
    (hop : ∀ ch G, op ≠ .attach ch G) : q'.ch = q.ch := by
  cases op with
  | attach ch G => exact absurd rfl (hop ch G)
  | _ =>
    simp only [chCall, ChQuery.reset, ChQuery.addSource, ChQuery.addTarget, ChQuery.run, ChQuery.pinTargets, ChQuery.pinSources,
      ChQuery.resetSource, ChQuery.resetTarget, ChQuery.runToPinnedTargets, ChQuery.runToPinnedSources, Option.map_eq_some_iff,
      Option.bind_eq_bind, Option.bind_eq_some_iff, Option.some.injEq, Prod.mk.injEq] at h
    grind

theorem chCall_attach_ch {q q' : ChQuery} {ch : Ch} {G : QGraph} {out : QOut} (h : chCall q (.attach ch G) = some (q', out)) :
    q'.ch = some ch := by
  simp only [chCall, ChQuery.resetCh, Option.map_eq_some_iff] at h
  obtain ⟨a, ha, e⟩ := h
  cases e
  split at ha
  · simp only [Option.bind_eq_bind, Option.bind_eq_some_iff, Option.some.injEq] at ha
    obtain ⟨_, _, rfl⟩ := ha
    rfl
  · cases ha; rfl

theorem qstep_withHier {ch : Ch} {s s' : QState} {op : QOp Nat} {out : QOut} :
    QStep s (op.withHier ch) out s' ↔ QStep s op out s' := by
  cases op <;> exact Iff.rfl

/-- The simulation relation. The hidden field `ch` remembers the hierarchy for which the members were computed. -/
structure RepLives (w : ChProgram) (S : LifeView) : Prop where
  hiers : ∀ i, match S.hiers i with
    | none => w.hiers i = none
    | some G => ∃ ch, w.hiers i = some ch ∧ HierOk ch G
  queries : ∀ k, match S.queries k with
    | none => w.queries k = none
    | some v => ∃ m, w.queries k = some (v.hier, m) ∧ QRep m v.query ∧ (v.intact = true → w.hiers v.hier = m.ch)

theorem RepLives.hier {w S i G} (h : RepLives w S) (e : S.hiers i = some G) : ∃ ch, w.hiers i = some ch ∧ HierOk ch G := by
  have := h.hiers i
  rw [e] at this
  exact this

theorem RepLives.query {w S k v} (h : RepLives w S) (e : S.queries k = some v) :
    ∃ m, w.queries k = some (v.hier, m) ∧ QRep m v.query ∧ (v.intact = true → w.hiers v.hier = m.ch) := by
  have := h.queries k
  rw [e] at this
  exact this

theorem changed_same {α : Type} (f : Nat → α) (k : Nat) (a : α) : changed f k a k = a := by simp [changed]

theorem changed_other {α : Type} {f : Nat → α} {k x : Nat} {a : α} (h : x ≠ k) : changed f k a x = f x := by simp [changed, h]

theorem RepLives.setHier {w S} (h : RepLives w S) (i : Nat) {c : Option Ch} {G : Option QGraph}
    (hc : match G with
      | none => c = none
      | some G => ∃ ch, c = some ch ∧ HierOk ch G) :
    RepLives ⟨changed w.hiers i c, w.queries⟩ (S.setHier i G) := by
  constructor
  · intro x
    by_cases e : x = i
    · subst e
      simp only [LifeView.setHier, changed_same]
      exact hc
    · simp only [LifeView.setHier, changed_other e]
      exact h.hiers x
  · intro k
    have hk := h.queries k
    cases hv : S.queries k with
    | none => rw [hv] at hk; simpa [LifeView.setHier, hv] using hk
    | some v =>
      rw [hv] at hk
      obtain ⟨m, h1, h2, h3⟩ := hk
      simp only [LifeView.setHier, hv, Option.map_some]
      by_cases e : v.hier = i
      · rw [if_pos e]
        exact ⟨m, h1, h2, fun hf => by simp at hf⟩
      · rw [if_neg e]
        refine ⟨m, h1, h2, fun hi => ?_⟩
        rw [changed_other e]
        exact h3 hi

theorem RepLives.setQuery {w S} (h : RepLives w S) (k : Nat) {m : Option (Nat × ChQuery)} {v : Option QueryView}
    (hv : match v with
      | none => m = none
      | some v => ∃ q, m = some (v.hier, q) ∧ QRep q v.query ∧ (v.intact = true → w.hiers v.hier = q.ch)) :
    RepLives ⟨w.hiers, changed w.queries k m⟩ ⟨S.hiers, changed S.queries k v⟩ := by
  refine ⟨h.hiers, fun x => ?_⟩
  by_cases e : x = k
  · subst e
    simp only [changed_same]
    exact hv
  · simp only [changed_other e]
    exact h.queries x

theorem life_step (w : ChProgram) (S : LifeView) (op : LifeOp Ch) (hr : RepLives w S)
    (hp : LifePre HierOk (fun n k => k ≤ n) S op) :
    ∃ w' out S', w.call op = some (w', out) ∧ LifeStep S op out S' ∧ RepLives w' S' := by
  cases op with
  | build i ch G => exact ⟨_, _, _, rfl, ⟨rfl, rfl⟩, hr.setHier i ⟨ch, rfl, hp⟩⟩
  | copyHier i j =>
    obtain ⟨G, hG⟩ := Option.ne_none_iff_exists'.mp hp
    obtain ⟨ch, e, hk⟩ := hr.hier hG
    refine ⟨⟨changed w.hiers i (some ch), w.queries⟩, .unit, _, by simp [ChProgram.call, e], ⟨rfl, rfl⟩, ?_⟩
    rw [hG]
    exact hr.setHier i ⟨ch, rfl, hk⟩
  | moveHier i j =>
    obtain ⟨G, hG⟩ := Option.ne_none_iff_exists'.mp hp.2
    obtain ⟨ch, e, hk⟩ := hr.hier hG
    refine ⟨⟨changed (changed w.hiers i (some ch)) j none, w.queries⟩, .unit, _, by simp [ChProgram.call, e], ⟨rfl, rfl⟩, ?_⟩
    rw [hG]
    exact (hr.setHier i (G := some G) (c := some ch) ⟨ch, rfl, hk⟩).setHier j (G := none) (c := none) rfl
  | endHier i =>
    obtain ⟨G, hG⟩ := Option.ne_none_iff_exists'.mp hp
    obtain ⟨ch, e, hk⟩ := hr.hier hG
    exact ⟨⟨changed w.hiers i none, w.queries⟩, .unit, _, by simp [ChProgram.call, e], ⟨rfl, rfl⟩, hr.setHier i (G := none) rfl⟩
  | construct k i =>
    obtain ⟨G, hG⟩ := Option.ne_none_iff_exists'.mp hp
    obtain ⟨ch, e, hk⟩ := hr.hier hG
    exact ⟨⟨w.hiers, changed w.queries k (some (i, ChQuery.new ch))⟩, .unit, _, by simp [ChProgram.call, e], ⟨G, hG, rfl, rfl⟩,
      hr.setQuery k (v := some ⟨i, QState.fresh G, true⟩) ⟨_, rfl, chQuery_rep_new hk, fun _ => e⟩⟩
  | copyQuery k l =>
    obtain ⟨v, hv⟩ := Option.ne_none_iff_exists'.mp hp
    obtain ⟨m, e, h1, h2⟩ := hr.query hv
    refine ⟨⟨w.hiers, changed w.queries k (some (v.hier, m))⟩, .unit, _, by simp [ChProgram.call, e], ⟨rfl, rfl⟩, ?_⟩
    rw [hv]
    exact hr.setQuery k (v := some v) ⟨m, rfl, h1, h2⟩
  | endQuery k =>
    obtain ⟨v, hv⟩ := Option.ne_none_iff_exists'.mp hp
    obtain ⟨m, e, h1, h2⟩ := hr.query hv
    exact ⟨⟨w.hiers, changed w.queries k none⟩, .unit, _, by simp [ChProgram.call, e], ⟨rfl, rfl⟩, hr.setQuery k (v := none) rfl⟩
  | call k op =>
    obtain ⟨v, hv, hp⟩ := hp
    obtain ⟨m, e, h1, h2⟩ := hr.query hv
    have other : (∀ j G, op ≠ .attach j G) → v.intact = true → QPre (fun _ _ => True) (fun n k => k ≤ n) v.query op →
        ∃ w' out S', (do
          let ch ← w.hiers v.hier
          let (m', out) ← chCall { m with ch := some ch } (op.withHier ch)
          some ((⟨w.hiers, changed w.queries k (some (v.hier, m'))⟩ : ChProgram), out)) = some (w', out) ∧
          LifeStep (H := Ch) S (.call k op) out S' ∧ RepLives w' S' := by
      intro hop hi hq
      obtain ⟨ch, hch, _⟩ := h1.ex
      have hw : w.hiers v.hier = some ch := (h2 hi).trans hch
      have hm : { m with ch := some ch } = m := by rw [← hch]
      have hna : ∀ c G, op.withHier ch ≠ .attach c G := by
        intro c G
        cases op with
        | attach j G' => exact absurd rfl (hop j G')
        | _ => simp [QOp.withHier]
      have hq' : QPre HierOk (fun n k => k ≤ n) v.query (op.withHier ch) := by
        cases op with
        | attach j G' => exact absurd rfl (hop j G')
        | _ => exact hq
      have haft : op.hierAfter v.hier = v.hier := by
        cases op with
        | attach j G' => exact absurd rfl (hop j G')
        | _ => rfl
      obtain ⟨m', out, s', e1, e2, e3⟩ := chCall_spec h1 hq'
      refine ⟨⟨w.hiers, changed w.queries k (some (v.hier, m'))⟩, out,
        ⟨S.hiers, changed S.queries k (some ⟨op.hierAfter v.hier, s', true⟩)⟩, ?_, ⟨v, s', hv, qstep_withHier.mp e2, rfl⟩, ?_⟩
      · simp only [hw, Option.bind_eq_bind, Option.bind_some, hm, e1]
      · rw [haft]
        refine hr.setQuery k (v := some ⟨v.hier, s', true⟩) ⟨m', rfl, e3, fun _ => ?_⟩
        rw [chCall_same_ch e1 hna, hch]
        exact hw
    cases op with
    | attach j G =>
      obtain ⟨ch, hw, hk⟩ := hr.hier (show S.hiers j = some G from hp)
      obtain ⟨m', out, s', e1, e2, e3⟩ := chCall_spec (op := .attach ch G) h1 hk
      refine ⟨⟨w.hiers, changed w.queries k (some (j, m'))⟩, out, ⟨S.hiers, changed S.queries k (some ⟨j, s', true⟩)⟩, ?_,
        ⟨v, s', hv, e2, rfl⟩, ?_⟩
      · simp only [ChProgram.call, ChProgram.callQuery, e, hw, Option.bind_eq_bind, Option.bind_some, e1]
      · exact hr.setQuery k (v := some ⟨j, s', true⟩) ⟨m', rfl, e3, fun _ => by rw [chCall_attach_ch e1]; exact hw⟩
    | _ =>
      simp only [ChProgram.call, ChProgram.callQuery, e, Option.bind_eq_bind, Option.bind_some]
      exact other (by simp) hp.1 hp.2

end RK
