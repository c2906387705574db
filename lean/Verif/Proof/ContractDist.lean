import Verif.Proof.ChLoops
import Verif.Spec.ArcReduction
/-! Helper lemmas: contraction and distances. -/
namespace RK
open Spec

def mapR (A : ArcMap) : Nat → Nat → Nat → Prop := fun x y w => ∃ i, A x y = some i ∧ i.weight = w

theorem Contracted.walk {A A' : ArcMap} {v : Nat} (h : Contracted A v A') (hl : ∀ x, A x x = none)
    {x y l : Nat} (hw : RWalk (mapR A) x y l) (hy : y ≠ v) :
    (x ≠ v → ∃ l', l' ≤ l ∧ RWalk (mapR A') x y l') ∧
    (x = v → ∀ p i, A p v = some i → ∃ l', l' ≤ i.weight + l ∧ RWalk (mapR A') p y l') := by
  induction hw with
  | nil x => exact ⟨fun _ => ⟨0, Nat.le_refl _, .nil x⟩, fun hx => absurd hx hy⟩
  | @cons x z y w l ha _ ih =>
    obtain ⟨i, hi, rfl⟩ := ha
    obtain ⟨ih1, ih2⟩ := ih hy
    constructor
    · intro hx
      by_cases hz : z = v
      · subst hz
        exact ih2 rfl x i hi
      · obtain ⟨i', hi', hle⟩ := h.dom x z i hi hx hz
        obtain ⟨l', hl', hw'⟩ := ih1 hz
        exact ⟨_, Nat.add_le_add hle hl', .cons ⟨i', hi', rfl⟩ hw'⟩
    · rintro rfl p j hj
      have hz : z ≠ x := by rintro rfl; rw [hl] at hi; cases hi
      obtain ⟨l', hl', hw'⟩ := ih1 hz
      by_cases hpz : p = z
      · subst hpz; exact ⟨l', by omega, hw'⟩
      · obtain ⟨k, hk, hb⟩ := h.bridge p z j i hj hi hpz
        exact ⟨_, by omega, hb.append hw'⟩

theorem Contracted.back {A A' : ArcMap} {v : Nat} (h : Contracted A v A')
    {x y l : Nat} (hw : RWalk (mapR A') x y l) : RWalk (mapR A) x y l := by
  refine hw.subst_eq ?_
  rintro x y w ⟨i, hi, rfl⟩
  rcases h.origin x y i hi with h1 | ⟨i1, i2, h1, h2, rfl⟩
  · exact .single ⟨i, h1, rfl⟩
  · exact .cons ⟨i1, h1, rfl⟩ (.single ⟨i2, h2, rfl⟩)

theorem GRep.irrefl {g : ChGraph} {n : Nat} {A : ArcMap} (hg : GRep g n A) (x : Nat) : A x x = none := by
  cases h : A x x with
  | none => rfl
  | some i => exact absurd rfl (hg.dom x x i h).2.2

/-- The arcs of a graph, numbered by their positions in the outgoing lists. -/
theorem GRep.arcs {g : ChGraph} {n : Nat} {A : ArcMap} (hg : GRep g n A) (x y w : Nat) :
    (∃ (a : Nat) (l : List ChArc) (arc : ChArc), g.out[x]? = some l ∧ l[a]? = some arc ∧ arc.node = y ∧ arc.weight = w) ↔ mapR A x y w := by
  constructor
  · rintro ⟨a, l, arc, h1, h2, rfl, rfl⟩
    have hx : x < n := by
      have := rd_some_lt (v := g.out) h1
      rw [hg.lenOut] at this; exact this
    obtain ⟨l', e, hl⟩ := hg.out x hx
    have : l' = l := Option.some.inj (e.symm.trans h1)
    subst this
    exact ⟨arc.info, (hl.mem arc).1 (List.mem_of_getElem? h2), rfl⟩
  · rintro ⟨i, hi, rfl⟩
    obtain ⟨l, e, hl⟩ := hg.out x (hg.dom _ _ _ hi).1
    obtain ⟨a, ha⟩ := List.getElem?_of_mem (hl.mem_mk.2 hi)
    exact ⟨a, l, _, e, ha, rfl, rfl⟩

theorem walk_iff {R : ArcRel} {Q : Nat → Nat → Nat → Prop} (h : ∀ x y w, (∃ a, R a x y w) ↔ Q x y w)
    (x y l : Nat) : (∃ p, Walk R x p y l) ↔ RWalk Q x y l := by
  constructor
  · rintro ⟨p, hp⟩
    induction hp with
    | nil s => exact .nil s
    | cons ha _ ih => exact .cons ((h _ _ _).1 ⟨_, ha⟩) ih
  · intro hw
    induction hw with
    | nil s => exact ⟨[], .nil s⟩
    | cons ha _ ih =>
      obtain ⟨p, hp⟩ := ih
      obtain ⟨a, ha⟩ := (h _ _ _).2 ha
      exact ⟨a :: p, .cons ha hp⟩

theorem isDist_iff {R : ArcRel} {Q : Nat → Nat → Nat → Prop} (h : ∀ x y w, (∃ a, R a x y w) ↔ Q x y w)
    (x y d : Nat) : IsDist R x y d ↔ RWalk Q x y d ∧ ∀ l, RWalk Q x y l → d ≤ l := by
  unfold IsDist
  rw [walk_iff h]
  constructor
  · rintro ⟨a, b⟩
    exact ⟨a, fun l hl => by obtain ⟨p, hp⟩ := (walk_iff h x y l).2 hl; exact b p l hp⟩
  · rintro ⟨a, b⟩
    exact ⟨a, fun p l hp => b l ((walk_iff h x y l).1 ⟨p, hp⟩)⟩

/-- Shortest lengths agree if walks of either kind can be replaced by not longer ones of the other kind. -/
theorem dist_congr {Q Q' : Nat → Nat → Nat → Prop} {x y : Nat}
    (h1 : ∀ l, RWalk Q x y l → ∃ l', l' ≤ l ∧ RWalk Q' x y l')
    (h2 : ∀ l, RWalk Q' x y l → ∃ l', l' ≤ l ∧ RWalk Q x y l') (d : Nat) :
    (RWalk Q x y d ∧ ∀ l, RWalk Q x y l → d ≤ l) ↔ (RWalk Q' x y d ∧ ∀ l, RWalk Q' x y l → d ≤ l) := by
  constructor
  · rintro ⟨a, b⟩
    obtain ⟨l', hl, hw⟩ := h1 d a
    obtain ⟨l2, hl2, hw2⟩ := h2 l' hw
    have := b l2 hw2
    have : l' = d := by omega
    subst this
    exact ⟨hw, fun l h => by obtain ⟨k, hk, hk2⟩ := h2 l h; have := b k hk2; omega⟩
  · rintro ⟨a, b⟩
    obtain ⟨l', hl, hw⟩ := h2 d a
    obtain ⟨l2, hl2, hw2⟩ := h1 l' hw
    have := b l2 hw2
    have : l' = d := by omega
    subst this
    exact ⟨hw, fun l h => by obtain ⟨k, hk, hk2⟩ := h1 l h; have := b k hk2; omega⟩

end RK
