import Verif.Spec.OsmProfile
/-! # Lemmas about the decoding of turn restrictions -/
namespace RK.Osm
open Spec

/-- The indices `is` point to the members `ms`. -/
def Points (members : List Member) (is : List Nat) (ms : List Member) : Prop :=
  List.Forall₂ (fun i m => rd members i = some m) is ms

theorem withRole_take {members : List Member} {i : Nat} {m : Member} (h : rd members i = some m) (role : List Byte) :
    withRole role (members.take (i + 1)) = withRole role (members.take i) ++ (if m.2.2 = role then [m] else []) := by
  obtain ⟨hi, rfl⟩ := rd_eq_some.1 h
  unfold withRole
  rw [List.take_succ_eq_append_getElem hi, List.filter_append]
  congr 1
  by_cases hr : (members[i]).2.2 = role <;> simp [hr]

/-- The state of the loop over the members. -/
def RoleInv (members : List Member) (i : Nat) : Option Roles → Prop
  | none => 2 ≤ (withRole b!"via" (members.take i)).length
  | some s => Points members s.froms (withRole b!"from" (members.take i)) ∧
      Points members s.tos (withRole b!"to" (members.take i)) ∧
      ((withRole b!"via" (members.take i) = [] ∧ s.via = invalidId) ∨
        ∃ m, withRole b!"via" (members.take i) = [m] ∧ rd members s.via = some m ∧ s.via ≠ invalidId)

theorem points_append {members : List Member} {is : List Nat} {ms : List Member} {i : Nat} {m : Member}
    (h : Points members is ms) (hm : rd members i = some m) : Points members (is ++ [i]) (ms ++ [m]) :=
  List.rel_append h (List.Forall₂.cons hm List.Forall₂.nil)

theorem roleLoop_ok (members : List Member) (hl : members.length < invalidId) :
    ∃ s, roleLoop members = some s ∧ RoleInv members members.length s := by
  unfold roleLoop
  apply forRange_inv (RoleInv members) (Nat.zero_le _)
  · refine ⟨List.Forall₂.nil, List.Forall₂.nil, Or.inl ⟨rfl, rfl⟩⟩
  · intro i s _ hi hs
    obtain ⟨m, hm⟩ := rd_isSome hi
    have hv := withRole_take hm b!"via"
    have hf := withRole_take hm b!"from"
    have ht := withRole_take hm b!"to"
    cases s with
    | none =>
      refine ⟨none, rfl, ?_⟩
      simp only [RoleInv] at hs ⊢
      rw [hv, List.length_append]
      omega
    | some s =>
      obtain ⟨h1, h2, h3⟩ := hs
      obtain ⟨ty, id, role⟩ := m
      simp only [hm, Option.bind_eq_bind, Option.bind_some]
      simp only at hv hf ht
      by_cases r1 : role = b!"via"
      · rw [if_pos r1] at hv ⊢
        rw [r1, if_neg (by decide)] at hf ht
        rcases h3 with ⟨h3, h4⟩ | ⟨m', h3, h4, h5⟩
        · rw [if_neg (by simp [h4])]
          refine ⟨_, rfl, ?_, ?_, Or.inr ⟨(ty, id, role), ?_, hm, by simp only; omega⟩⟩
          · rw [hf, List.append_nil]; exact h1
          · rw [ht, List.append_nil]; exact h2
          · rw [hv, h3]; rfl
        · rw [if_pos h5]
          refine ⟨none, rfl, ?_⟩
          simp only [RoleInv]
          rw [hv, h3]
          simp
      · rw [if_neg r1] at hv ⊢
        rw [List.append_nil] at hv
        by_cases r2 : role = b!"from"
        · rw [if_pos r2] at hf ⊢
          rw [r2, if_neg (by decide)] at ht
          refine ⟨_, rfl, ?_, ?_, ?_⟩
          · rw [hf]; exact points_append h1 hm
          · rw [ht, List.append_nil]; exact h2
          · rw [hv]; exact h3
        · rw [if_neg r2] at hf ⊢
          rw [List.append_nil] at hf
          by_cases r3 : role = b!"to"
          · rw [if_pos r3] at ht ⊢
            refine ⟨_, rfl, ?_, ?_, ?_⟩
            · rw [hf]; exact h1
            · rw [ht]; exact points_append h2 hm
            · rw [hv]; exact h3
          · rw [if_neg r3] at ht ⊢
            rw [List.append_nil] at ht
            refine ⟨_, rfl, ?_, ?_, ?_⟩
            · rw [hf]; exact h1
            · rw [ht]; exact h2
            · rw [hv]; exact h3

theorem onlyWays_ok {members : List Member} {is : List Nat} {ms : List Member} (h : Points members is ms) :
    ∃ js, onlyWays members is = some js ∧ Points members js (ms.filter fun m => m.1 = 1) := by
  induction h with
  | nil => exact ⟨[], rfl, List.Forall₂.nil⟩
  | cons hm _ ih =>
    rename_i i m is ms _
    obtain ⟨js, hj, hp⟩ := ih
    obtain ⟨ty, id, role⟩ := m
    simp only [onlyWays, hm, hj, Option.bind_eq_bind, Option.bind_some]
    by_cases h1 : ty = 1
    · exact ⟨i :: js, by simp [h1], by
        simp only [h1, List.filter_cons, decide_true, if_true]
        exact List.Forall₂.cons (by rw [hm, h1]) hp⟩
    · exact ⟨js, by simp [h1], by simpa [List.filter_cons, h1] using hp⟩

theorem emitInner (relation : BitVec 64) {members : List Member} (c : RestrictionCategory) (d : TurnDirection)
    (via : BitVec 64) {tos : List Nat} {ts : List Member} (h : Points members tos ts) {f : Nat} {m : Member}
    (hf : rd members f = some m) (out : List TurnRestriction) :
    forEach tos out (fun out t => do
      let (_, a, _) ← rd members f
      let (_, b, _) ← rd members t
      some (out ++ [⟨relation, c, d, a, via, b⟩])) =
    some (out ++ ts.map fun t => ⟨relation, c, d, m.2.1, via, t.2.1⟩) := by
  induction h generalizing out with
  | nil => simp [forEach]
  | cons hm _ ih =>
    simp only [forEach, hf, hm, Option.bind_eq_bind, Option.bind_some]
    rename_i i m' _ _ _
    have := ih (out ++ [⟨relation, c, d, m.2.1, via, m'.2.1⟩])
    simp only [hf, Option.bind_eq_bind, Option.bind_some] at this
    rw [this]
    simp

theorem emitAll_ok (relation : BitVec 64) {members : List Member} (c : RestrictionCategory) (d : TurnDirection)
    (via : BitVec 64) {froms tos : List Nat} {fs ts : List Member} (hf : Points members froms fs)
    (ht : Points members tos ts) :
    emitAll relation members c d via froms tos =
      some (fs.flatMap fun f => ts.map fun t => ⟨relation, c, d, f.2.1, via, t.2.1⟩) := by
  have key : ∀ out, forEach froms out (fun out f => forEach tos out fun out t => do
      let (_, a, _) ← rd members f
      let (_, b, _) ← rd members t
      some (out ++ [(⟨relation, c, d, a, via, b⟩ : TurnRestriction)])) =
      some (out ++ fs.flatMap fun f => ts.map fun t => ⟨relation, c, d, f.2.1, via, t.2.1⟩) := by
    induction hf with
    | nil => intro out; simp [forEach]
    | cons hm _ ih =>
      intro out
      have hi := emitInner relation c d via ht hm out
      rw [forEach, hi]
      simp only [Option.bind_some]
      rw [ih]
      simp
  have := key []
  rw [List.nil_append] at this
  exact this

theorem startsWith_iff (p s : List Byte) : startsWith p s = true ↔ ∃ t, s = p ++ t := by
  induction p generalizing s with
  | nil => simp [startsWith]
  | cons c cs ih =>
    cases s with
    | nil => simp [startsWith]
    | cons d ds =>
      simp only [startsWith]
      by_cases h : d = c
      · simp [h, ih]
      · simp [h]

theorem restrictionDirection_eq {t : List Byte} {d : TurnDirection} (h : restrictionDirection t = some d) :
    (t, d) ∈ [(b!"left_turn", TurnDirection.left), (b!"right_turn", .right), (b!"straight_on", .straight),
      (b!"u_turn", .uTurn)] := by
  unfold restrictionDirection at h
  split at h
  · rename_i e; cases h; subst e; decide
  · split at h
    · rename_i e; cases h; subst e; decide
    · split at h
      · rename_i e; cases h; subst e; decide
      · split at h
        · rename_i e; cases h; subst e; decide
        · cases h

theorem restrictionKind_iff (r : List Byte) (c : RestrictionCategory) (d : TurnDirection) :
    restrictionKind r = some (c, d) ↔ (r, c, d) ∈ restrictionTexts := by
  constructor
  · intro h
    unfold restrictionKind at h
    simp only [Option.bind_eq_bind] at h
    obtain ⟨⟨c', t⟩, h1, h2⟩ := Option.bind_eq_some_iff.1 h
    obtain ⟨d', h3, h4⟩ := Option.bind_eq_some_iff.1 h2
    simp only [Option.some.injEq, Prod.mk.injEq] at h4
    obtain ⟨rfl, rfl⟩ := h4
    have hd := restrictionDirection_eq h3
    have ht : (c' = .mandatory ∧ r = b!"only_" ++ t) ∨ (c' = .prohibitive ∧ r = b!"no_" ++ t) := by
      unfold restrictionCategory at h1
      split at h1
      · rename_i hs
        obtain ⟨t', ht'⟩ := (startsWith_iff _ _).1 hs
        simp only [Option.some.injEq, Prod.mk.injEq] at h1
        left
        refine ⟨h1.1.symm, ?_⟩
        rw [← h1.2, ht']; rfl
      · split at h1
        · rename_i hs
          obtain ⟨t', ht'⟩ := (startsWith_iff _ _).1 hs
          simp only [Option.some.injEq, Prod.mk.injEq] at h1
          right
          refine ⟨h1.1.symm, ?_⟩
          rw [← h1.2, ht']; rfl
        · cases h1
    simp only [List.mem_cons, List.mem_nil_iff, or_false, Prod.mk.injEq] at hd
    rcases hd with ⟨h5, h6⟩ | ⟨h5, h6⟩ | ⟨h5, h6⟩ | ⟨h5, h6⟩ <;> rcases ht with ⟨h7, h8⟩ | ⟨h7, h8⟩ <;>
      (rw [h8, h5, h6, h7]; decide)
  · intro h
    simp only [restrictionTexts, List.mem_cons, List.mem_nil_iff, or_false, Prod.mk.injEq] at h
    rcases h with ⟨rfl, rfl, rfl⟩ | ⟨rfl, rfl, rfl⟩ | ⟨rfl, rfl, rfl⟩ | ⟨rfl, rfl, rfl⟩ | ⟨rfl, rfl, rfl⟩ | ⟨rfl, rfl, rfl⟩ |
      ⟨rfl, rfl, rfl⟩ | ⟨rfl, rfl, rfl⟩ <;> decide

theorem filter_ways (role : List Byte) (members : List Member) :
    (withRole role members).filter (fun m => m.1 = 1) = waysWithRole role members := by
  simp [withRole, waysWithRole, List.filter_filter]

theorem decode_ok (relation : BitVec 64) (members : List Member) (t : Tags) (hl : members.length < invalidId)
    (hty : ∀ m ∈ members, m.1 < 3) (c : RestrictionCategory) (d : TurnDirection) (r : List Byte)
    (hr : t b!"restriction" = some r) (hk : (r, c, d) ∈ restrictionTexts) :
    decodeRestrictions relation members t =
      some (if SoundRestriction c members then restrictionsOf relation members c d else []) := by
  unfold decodeRestrictions
  simp only [hr, (restrictionKind_iff r c d).2 hk]
  obtain ⟨s, hs, hi⟩ := roleLoop_ok members hl
  rw [hs]
  simp only [Option.bind_eq_bind, Option.bind_some]
  cases s with
  | none =>
    simp only [RoleInv, List.take_length] at hi
    rw [if_neg]
    intro h
    have := h.1
    omega
  | some s =>
    obtain ⟨h1, h2, h3⟩ := hi
    rw [List.take_length] at h1 h2 h3
    obtain ⟨fs, hf, hfp⟩ := onlyWays_ok h1
    obtain ⟨ts, ht, htp⟩ := onlyWays_ok h2
    rw [filter_ways] at hfp htp
    have lf := hfp.length_eq
    have lt := htp.length_eq
    -- the part behind the node
    have rest : ∀ via, viaOf members = via → (∀ m ∈ withRole b!"via" members, m.1 = 0) →
        (withRole b!"via" members).length ≤ 1 →
        ((onlyWays members s.froms).bind fun froms => (onlyWays members s.tos).bind fun tos =>
          if tos = [] then some []
          else if froms = [] then some []
          else if c = .mandatory ∧ tos.length ≠ 1 then some []
          else if c = .mandatory ∧ froms.length ≠ 1 then some []
          else emitAll relation members c d via froms tos) =
        some (if SoundRestriction c members then restrictionsOf relation members c d else []) := by
      intro via hv h0 hle
      rw [hf, ht]
      simp only [Option.bind_some]
      by_cases e1 : ts = []
      · rw [if_pos e1, if_neg]
        rintro ⟨-, -, -, h, -⟩
        rw [e1] at lt
        exact h (List.length_eq_zero_iff.1 lt.symm)
      · rw [if_neg e1]
        by_cases e2 : fs = []
        · rw [if_pos e2, if_neg]
          rintro ⟨-, -, h, -, -⟩
          rw [e2] at lf
          exact h (List.length_eq_zero_iff.1 lf.symm)
        · rw [if_neg e2]
          by_cases e3 : c = .mandatory ∧ ts.length ≠ 1
          · rw [if_pos e3, if_neg]
            rintro ⟨-, -, -, -, h⟩
            have := (h e3.1).2
            omega
          · rw [if_neg e3]
            by_cases e4 : c = .mandatory ∧ fs.length ≠ 1
            · rw [if_pos e4, if_neg]
              rintro ⟨-, -, -, -, h⟩
              have := (h e4.1).1
              omega
            · rw [if_neg e4, if_pos, emitAll_ok relation c d via hfp htp, restrictionsOf, hv]
              refine ⟨hle, h0, ?_, ?_, ?_⟩
              · intro h; rw [h] at lf; exact e2 (List.length_eq_zero_iff.1 lf)
              · intro h; rw [h] at lt; exact e1 (List.length_eq_zero_iff.1 lt)
              · intro hc
                rw [not_and, not_not] at e3 e4
                exact ⟨by rw [← lf]; exact e4 hc, by rw [← lt]; exact e3 hc⟩
    rcases h3 with ⟨h3, h4⟩ | ⟨m, h3, h4, h5⟩
    · simp only [viaNodeOf, h4, if_true, Option.bind_some]
      exact rest _ (by rw [viaOf, h3]) (by simp [h3]) (by simp [h3])
    · obtain ⟨ty, id, role⟩ := m
      simp only [viaNodeOf, if_neg h5, h4, Option.bind_eq_bind, Option.bind_some]
      have hlt := hty _ (List.mem_of_getElem? (by simpa [rd] using h4))
      simp only at hlt
      by_cases t2 : ty = 2
      · rw [if_pos t2]
        simp only [Option.bind_some]
        rw [if_neg]
        rintro ⟨-, h, -⟩
        have := h (ty, id, role) (by simp [h3])
        simp only at this
        omega
      · rw [if_neg t2]
        by_cases t1 : ty = 1
        · rw [if_pos t1]
          simp only [Option.bind_some]
          rw [if_neg]
          rintro ⟨-, h, -⟩
          have := h (ty, id, role) (by simp [h3])
          simp only at this
          omega
        · rw [if_neg t1]
          simp only [Option.bind_some]
          exact rest _ (by rw [viaOf, h3]) (by simp [h3]; omega) (by simp [h3])

theorem decode_none (relation : BitVec 64) (members : List Member) (t : Tags)
    (h : ∀ r, t b!"restriction" = some r → ∀ c d, (r, c, d) ∉ restrictionTexts) :
    decodeRestrictions relation members t = some [] := by
  unfold decodeRestrictions
  cases hr : t b!"restriction" with
  | none => rfl
  | some r =>
    simp only
    cases hk : restrictionKind r with
    | none => rfl
    | some p => exact absurd ((restrictionKind_iff r p.1 p.2).1 hk) (h r hr p.1 p.2)

end RK.Osm
