import Verif.Model.CchQuery
import Verif.Proof.CchOk
import Verif.Proof.CchParallel
/-! Search spaces of the elimination tree queries: unions of paths toward the root. -/
namespace RK
open Spec

/-- The path from a node to `e` (exclusive) along the parents. -/
inductive Seg (parent : List Nat) (e : Nat) : Nat → List Nat → Prop
  | nil : Seg parent e e []
  | cons {x p : Nat} {l : List Nat} : x ≠ e → rd parent x = some p → x < p → Seg parent e p l → Seg parent e x (x :: l)

theorem Seg.lt {parent : List Nat} {e x : Nat} {l : List Nat} (h : Seg parent e x l) : ∀ y ∈ l, y < parent.length := by
  induction h with
  | nil => simp
  | cons _ h2 _ _ ih =>
    intro y hy
    rcases List.mem_cons.1 hy with rfl | hy
    · exact rd_some_lt h2
    · exact ih y hy

theorem Seg.length_le {parent : List Nat} {e x : Nat} {l : List Nat} (h : Seg parent e x l) : l.length ≤ parent.length - x := by
  induction h with
  | nil => simp
  | cons _ h2 _ _ ih =>
    have := rd_some_lt h2
    simp only [List.length_cons]
    omega

theorem ancestorLoop_seg {σ : Type} {parent : List Nat} {e : Nat} {f : σ → Nat → Option σ} :
    ∀ {x : Nat} {l : List Nat}, Seg parent e x l → ∀ (fuel : Nat) (s : σ), l.length < fuel →
      ancestorLoop parent e (fun s x => (f s x).map fun s => (s, true)) fuel x s = forEach l s f := by
  intro x l h
  induction h with
  | nil =>
    intro fuel s hf
    obtain ⟨k, rfl⟩ : ∃ k, fuel = k + 1 := ⟨fuel - 1, by simp at hf; omega⟩
    simp [ancestorLoop, forEach]
  | @cons x p l h1 h2 h3 _ ih =>
    intro fuel s hf
    obtain ⟨k, rfl⟩ : ∃ k, fuel = k + 1 := ⟨fuel - 1, by simp at hf; omega⟩
    have hx := rd_some_lt h2
    simp only [List.length_cons] at hf
    rw [ancestorLoop, if_pos h1]
    have c1 : decide (x < parent.length) = true := by simpa using hx
    have c2 : decide (p > x) = true := by simpa using h3
    show _ = (f s x).bind _
    simp only [c1, c2, check_true, h2, Option.bind_eq_bind, Option.bind_some]
    cases f s x with
    | none => rfl
    | some s' =>
      simp only [Option.map_some, Option.bind_some, if_true]
      exact ih k s' (by omega)

theorem forAncestors'_seg {σ : Type} {parent : List Nat} {e x : Nat} {l : List Nat} {f : σ → Nat → Option σ} {s : σ}
    (h : Seg parent e x l) (hx : x < parent.length) (he : e < parent.length ∨ e = invalidId) :
    forAncestors' parent x e s f = forEach l s f := by
  have c1 : decide (x < parent.length) = true := by simpa using hx
  have c2 : decide (e < parent.length ∨ e = invalidId) = true := by simpa using he
  unfold forAncestors' forAncestors
  simp only [c1, c2, check_true, Option.bind_eq_bind, Option.bind_some]
  exact ancestorLoop_seg h _ s (by have := h.length_le; omega)

/-- Nodes `ns` with the ends `es` of their paths; `L` are all nodes on the paths, from the last path to the first. -/
inductive Space (parent : List Nat) : List Nat → List Nat → List Nat → Prop
  | nil : Space parent [] [] []
  | snoc {ns es L seg : List Nat} {x e : Nat} : Space parent ns es L → x < parent.length → Seg parent e x seg →
      (e ∈ L ∨ e = invalidId) → (∀ y ∈ seg, y ∉ L) → Space parent (ns ++ [x]) (es ++ [e]) (seg ++ L)

theorem Space.length {parent ns es L : List Nat} (h : Space parent ns es L) : es.length = ns.length := by
  induction h with
  | nil => rfl
  | snoc _ _ _ _ _ ih => simp [ih]

theorem Space.lt {parent ns es L : List Nat} (h : Space parent ns es L) : ∀ y ∈ L, y < parent.length := by
  induction h with
  | nil => simp
  | snoc _ _ hs _ _ ih =>
    intro y hy
    rcases List.mem_append.1 hy with hy | hy
    · exact hs.lt y hy
    · exact ih y hy

theorem Space.start_mem {parent ns es L : List Nat} (h : Space parent ns es L) (hn : parent.length ≤ invalidId) :
    ∀ x ∈ ns, x ∈ L := by
  induction h with
  | nil => simp
  | snoc h1 h2 hs he _ ih =>
    intro y hy
    rcases List.mem_append.1 hy with hy | hy
    · exact List.mem_append_right _ (ih y hy)
    · rw [List.mem_singleton] at hy
      subst hy
      cases hs with
      | nil =>
        rcases he with he | he
        · exact he
        · omega
      | cons => simp

/-- Every node comes before its parent. -/
inductive Topo (parent : List Nat) : List Nat → Prop
  | nil : Topo parent []
  | cons {x p : Nat} {L : List Nat} : Topo parent L → x ∉ L → rd parent x = some p → (p = invalidId ∨ p ∈ L) →
      Topo parent (x :: L)

theorem Topo.seg {parent : List Nat} {e x : Nat} {seg L : List Nat} (hL : Topo parent L) (he : e ∈ L ∨ e = invalidId)
    (h : Seg parent e x seg) (hd : ∀ y ∈ seg, y ∉ L) :
    Topo parent (seg ++ L) ∧ (x ∈ seg ++ L ∨ x = invalidId) ∧ ∀ y ∈ seg, x ≤ y := by
  induction h with
  | nil => exact ⟨hL, he, by simp⟩
  | @cons x p l h1 h2 h3 _ ih =>
    obtain ⟨t1, t2, t3⟩ := ih (fun y hy => hd y (List.mem_cons_of_mem _ hy))
    refine ⟨.cons t1 ?_ h2 t2.symm, Or.inl (by simp), ?_⟩
    · intro hx
      rcases List.mem_append.1 hx with hx | hx
      · have := t3 x hx; omega
      · exact hd x (by simp) hx
    · intro y hy
      rcases List.mem_cons.1 hy with rfl | hy
      · exact Nat.le_refl _
      · have := t3 y hy; omega

theorem Space.topo {parent ns es L : List Nat} (h : Space parent ns es L) : Topo parent L := by
  induction h with
  | nil => exact .nil
  | snoc _ _ hs he hd ih => exact (Topo.seg ih he hs hd).1

theorem Topo.suffix {parent : List Nat} : ∀ {pre L : List Nat}, Topo parent (pre ++ L) → Topo parent L
  | [], _, h => h
  | _ :: _, _, h => by cases h with | cons h _ _ _ => exact Topo.suffix h

theorem Topo.nodup {parent L : List Nat} (h : Topo parent L) : L.Nodup := by
  induction h with
  | nil => exact List.nodup_nil
  | cons _ h2 _ _ ih => exact List.nodup_cons.2 ⟨h2, ih⟩

/-- The parent of a member is a member. -/
theorem Topo.parent_mem {parent L : List Nat} (h : Topo parent L) {x p : Nat} (hx : x ∈ L) (hp : rd parent x = some p)
    (hi : p ≠ invalidId) : p ∈ L := by
  induction h with
  | nil => cases hx
  | @cons x' p' L _ _ h3 h4 ih =>
    rcases List.mem_cons.1 hx with rfl | hx
    · cases (hp.symm.trans h3 : some p = some p')
      rcases h4 with h4 | h4
      · exact absurd h4 hi
      · exact List.mem_cons_of_mem _ h4
    · exact List.mem_cons_of_mem _ (ih hx)

/-- Upward neighbours come later. -/
theorem Topo.up {n : Nat} {rt rh : List Nat} {c : Cch} {U : List Bool} (hn : n ≤ invalidId) (h : CchOk n rt rh c U) :
    ∀ k x y (L : List Nat), y - x ≤ k → Topo c.parent (x :: L) → Fill rt rh x y → y < n → y ∈ L := by
  have key : ∀ k x y (L : List Nat), y - x ≤ k → Topo c.parent L → x ∈ L → Fill rt rh x y → y < n → y ∈ L := by
    intro k
    induction k with
    | zero => intro x y L hk _ _ hf; have := hf.1; omega
    | succ k ih =>
      intro x y L hk ht hx hf hy
      obtain ⟨p, hp, hc⟩ := h.parent x (by have := hf.1; omega)
      rcases hc with ⟨_, hno⟩ | ⟨hxp, hle⟩
      · exact absurd hf (hno y)
      · have hpy := hle y hf
        have hpL := ht.parent_mem hx hp (by omega)
        by_cases hpe : p = y
        · subst hpe; exact hpL
        · have hlt := hxp.1
          refine ih p y L (by omega) ht hpL ⟨by omega, ?_⟩ hy
          have p1 := innerPath_symm (fun _ _ h => Or.symm h) hxp.2
          exact innerPath_append (isPath_of_lt p1 (by omega)) hlt (isPath_of_lt hf.2 (by omega))
  intro k x y L hk ht hf hy
  obtain ⟨p, hp, hc⟩ := h.parent x (by have := hf.1; omega)
  rcases hc with ⟨_, hno⟩ | ⟨hxp, hle⟩
  · exact absurd hf (hno y)
  · have hpy := hle y hf
    have hlt := hxp.1
    cases ht with
    | @cons _ p' _ t1 _ t3 t4 =>
      cases (hp.symm.trans t3 : some p = some p')
      have hpL : p ∈ L := t4.resolve_left (by omega)
      by_cases hpe : p = y
      · subst hpe; exact hpL
      · refine key k p y L (by omega) t1 hpL ⟨by omega, ?_⟩ hy
        have p1 := innerPath_symm (fun _ _ h => Or.symm h) hxp.2
        exact innerPath_append (isPath_of_lt p1 (by omega)) hlt (isPath_of_lt hf.2 (by omega))

/-! ### Visiting a search space -/

theorem forDown_congr {σ : Type} {f g : σ → Nat → Option σ} : ∀ (k : Nat) (s : σ), (∀ i s, i < k → f s i = g s i) →
    forDown k s f = forDown k s g
  | 0, s, _ => rfl
  | k + 1, s, h => by
    show (f s k).bind _ = (g s k).bind _
    rw [h k s (by omega)]
    congr 1
    funext s'
    exact forDown_congr k s' (fun i s hi => h i s (by omega))

/-- The body of the loops over start nodes. -/
def visitAt {σ : Type} (parent ns es : List Nat) (f : σ → Nat → Option σ) (s : σ) (i : Nat) : Option σ := do
  let x ← rd ns i
  let e ← rd es i
  forAncestors' parent x e s f

theorem visitAt_snoc {σ : Type} {parent ns es : List Nat} {x e : Nat} (f : σ → Nat → Option σ) (hl : es.length = ns.length)
    (s : σ) {i : Nat} (hi : i < ns.length) :
    visitAt parent (ns ++ [x]) (es ++ [e]) f s i = visitAt parent ns es f s i := by
  unfold visitAt
  have e1 : rd (ns ++ [x]) i = rd ns i := List.getElem?_append_left hi
  have e2 : rd (es ++ [e]) i = rd es i := List.getElem?_append_left (by omega)
  rw [e1, e2]

theorem visitAt_last {σ : Type} {parent ns es L seg : List Nat} {x e : Nat} (f : σ → Nat → Option σ) (h : Space parent ns es L)
    (hx : x < parent.length) (hs : Seg parent e x seg) (he : e ∈ L ∨ e = invalidId) (s : σ) :
    visitAt parent (ns ++ [x]) (es ++ [e]) f s ns.length = forEach seg s f := by
  unfold visitAt
  have hl := h.length
  have e1 : rd (ns ++ [x]) ns.length = some x := by unfold rd; simp
  have e2 : rd (es ++ [e]) ns.length = some e := by rw [← hl]; unfold rd; simp
  rw [e1, e2]
  exact forAncestors'_seg hs hx (he.imp (h.lt e) id)

theorem Space.visit {σ : Type} {parent ns es L : List Nat} (f : σ → Nat → Option σ) (h : Space parent ns es L) (s : σ) :
    forDown ns.length s (visitAt parent ns es f) = forEach L s f := by
  induction h generalizing s with
  | nil => rfl
  | @snoc ns es L seg x e h1 h2 hs he _ ih =>
    have hlen : (ns ++ [x]).length = ns.length + 1 := by simp
    rw [hlen, forEach_append]
    show (visitAt _ _ _ f s ns.length).bind _ = _
    rw [visitAt_last f h1 h2 hs he]
    congr 1
    funext s'
    rw [← ih s']
    exact forDown_congr _ _ (fun i s hi => visitAt_snoc f h1.length s hi)

theorem visit_spec {σ : Type} {parent L : List Nat} {h : CchHalf} (f : σ → Nat → Option σ) (hs : Space parent h.nodes h.ends L)
    (s : σ) : h.visit parent s f = forEach L s f := hs.visit f s

theorem forN_succ_last {σ : Type} (f : σ → Nat → Option σ) : ∀ (k lo : Nat) (s : σ),
    forN f lo (k + 1) s = (forN f lo k s).bind fun s => f s (lo + k)
  | 0, lo, s => by
    show (f s lo).bind (fun s => some s) = (some s).bind _
    simp
  | k + 1, lo, s => by
    show (f s lo).bind _ = ((f s lo).bind _).bind _
    rw [Option.bind_assoc]
    congr 1
    funext s'
    rw [forN_succ_last f k (lo + 1) s', show lo + 1 + k = lo + (k + 1) by omega]

theorem forN_congr {σ : Type} {f g : σ → Nat → Option σ} : ∀ (k lo : Nat) (s : σ), (∀ i s, lo ≤ i → i < lo + k → f s i = g s i) →
    forN f lo k s = forN g lo k s
  | 0, _, _, _ => rfl
  | k + 1, lo, s, h => by
    show (f s lo).bind _ = (g s lo).bind _
    rw [h lo s (Nat.le_refl _) (by omega)]
    congr 1
    funext s'
    exact forN_congr k (lo + 1) s' (fun i s h1 h2 => h i s (by omega) (by omega))

/-- The loop of `reset_source_list` visits the same nodes in another order. -/
theorem Space.visitUp {σ : Type} {parent ns es L : List Nat} (f : σ → Nat → Option σ) (h : Space parent ns es L) :
    ∃ L', (∀ x, x ∈ L' ↔ x ∈ L) ∧ ∀ s : σ, forRange 0 ns.length s (visitAt parent ns es f) = forEach L' s f := by
  induction h with
  | nil => exact ⟨[], by simp, fun s => rfl⟩
  | @snoc ns es L seg x e h1 h2 hs he _ ih =>
    obtain ⟨L', hm, hf⟩ := ih
    refine ⟨L' ++ seg, ?_, ?_⟩
    · intro y
      rw [List.mem_append, List.mem_append, hm]
      exact or_comm
    · intro s
      have hlen : (ns ++ [x]).length = ns.length + 1 := by simp
      rw [hlen]
      show forN _ 0 (ns.length + 1) s = _
      rw [forN_succ_last, forEach_append, ← hf s]
      have e1 : forN (visitAt parent (ns ++ [x]) (es ++ [e]) f) 0 ns.length s = forRange 0 ns.length s (visitAt parent ns es f) := by
        show _ = forN _ 0 (ns.length - 0) s
        exact forN_congr _ _ _ (fun i s _ hi => visitAt_snoc f h1.length s (by omega))
      rw [e1]
      congr 1
      funext s'
      rw [Nat.zero_add]
      exact visitAt_last f h1 h2 hs he s'

/-! ### Entering a node -/

/-- The flags tell the members of `L`. -/
def Flags (n : Nat) (v : List Bool) (L : List Nat) : Prop := v.length = n ∧ ∀ x, x < n → rd v x = some (decide (x ∈ L))

theorem Flags.set {n : Nat} {v : List Bool} {L : List Nat} (h : Flags n v L) {x : Nat} (hx : x < n) {L' : List Nat}
    (hL : ∀ y, y ∈ L' ↔ y = x ∨ y ∈ L) : wr v x true = some (v.set x true) ∧ Flags n (v.set x true) L' := by
  have hl := h.1
  refine ⟨wr_lt (by omega), by simpa using hl, ?_⟩
  intro y hy
  rw [rd_set (by omega)]
  by_cases hyx : y = x
  · rw [if_pos hyx]
    have : y ∈ L' := (hL y).2 (Or.inl hyx)
    simp [this]
  · rw [if_neg hyx, h.2 y hy]
    have : y ∈ L' ↔ y ∈ L := by rw [hL]; simp [hyx]
    simp [this]

theorem enterLoop_spec {τ : Type} {parent : List Nat} {n : Nat} (hlen : parent.length = n) (hn : n ≤ invalidId)
    (hp : ∀ x, x < n → ∃ p, rd parent x = some p ∧ x < p ∧ (p < n ∨ p = invalidId))
    {f : List Bool × τ → Nat → Option ((List Bool × τ) × Bool)} {t0 : τ} {g : Nat → τ}
    (h0 : ∀ v x, rd v x = some false → f (v, t0) x = some ((v.set x true, t0), true))
    (h1 : ∀ v x, rd v x = some true → f (v, t0) x = some ((v, g x), false)) {L : List Nat} :
    ∀ (fuel x : Nat) (v : List Bool) (done : List Nat), n - x < fuel → (x < n ∨ x = invalidId) →
      Flags n v (done ++ L) → (∀ y ∈ done, y < x) →
      ∃ v' e seg, ancestorLoop parent invalidId f fuel x (v, t0) = some (v', if e = invalidId then t0 else g e) ∧
        Seg parent e x seg ∧ (e ∈ L ∨ e = invalidId) ∧ (∀ y ∈ seg, y ∉ L) ∧ Flags n v' (done ++ (seg ++ L)) := by
  intro fuel
  induction fuel with
  | zero => intro x v done hf; omega
  | succ k ih =>
    intro x v done hf hx hv hd
    by_cases hxi : x = invalidId
    · subst hxi
      refine ⟨v, invalidId, [], ?_, .nil, Or.inr rfl, by simp, by simpa using hv⟩
      simp [ancestorLoop]
    · have hxn : x < n := hx.resolve_right hxi
      have c1 : decide (x < parent.length) = true := by simp; omega
      rw [ancestorLoop, if_pos hxi]
      simp only [c1, check_true, Option.bind_eq_bind, Option.bind_some]
      by_cases hxL : x ∈ L
      · have hr : rd v x = some true := by rw [hv.2 x hxn]; simp [hxL]
        rw [h1 v x hr]
        refine ⟨v, x, [], ?_, .nil, Or.inl hxL, by simp, by simpa using hv⟩
        simp [hxi]
      · have hxd : x ∉ done := fun h => by have := hd x h; omega
        have hr : rd v x = some false := by rw [hv.2 x hxn]; simp [hxL, hxd]
        rw [h0 v x hr]
        obtain ⟨p, hp1, hp2, hp3⟩ := hp x hxn
        have c2 : decide (p > x) = true := by simpa using hp2
        simp only [Option.bind_some, if_true, hp1, c2, check_true]
        obtain ⟨_, hv'⟩ := hv.set hxn (L' := (done ++ [x]) ++ L) (by intro y; simp; tauto)
        obtain ⟨v', e, seg, e1, e2, e3, e4, e5⟩ := ih p (v.set x true) (done ++ [x]) (by omega) hp3 hv' (by
          intro y hy
          rcases List.mem_append.1 hy with hy | hy
          · have := hd y hy; omega
          · rw [List.mem_singleton] at hy; omega)
        refine ⟨v', e, x :: seg, e1, .cons ?_ hp1 hp2 e2, e3, ?_, by simpa using e5⟩
        · rintro rfl
          rcases e3 with e3 | e3
          · exact hxL e3
          · exact hxi e3
        · intro y hy
          rcases List.mem_cons.1 hy with rfl | hy
          · exact hxL
          · exact e4 y hy

theorem enterNode_spec {τ : Type} {parent : List Nat} {n : Nat} (hlen : parent.length = n) (hn : n ≤ invalidId)
    (hp : ∀ x, x < n → ∃ p, rd parent x = some p ∧ x < p ∧ (p < n ∨ p = invalidId))
    {f : List Bool × τ → Nat → Option ((List Bool × τ) × Bool)} {t0 : τ} {g : Nat → τ}
    (h0 : ∀ v x, rd v x = some false → f (v, t0) x = some ((v.set x true, t0), true))
    (h1 : ∀ v x, rd v x = some true → f (v, t0) x = some ((v, g x), false)) {L : List Nat} {x : Nat} {v : List Bool}
    (hx : x < n) (hv : Flags n v L) :
    ∃ v' e seg, forAncestors parent x invalidId (v, t0) f = some (v', if e = invalidId then t0 else g e) ∧
      Seg parent e x seg ∧ (e ∈ L ∨ e = invalidId) ∧ (∀ y ∈ seg, y ∉ L) ∧ Flags n v' (seg ++ L) := by
  obtain ⟨v', e, seg, e1, e2, e3, e4, e5⟩ := enterLoop_spec hlen hn hp h0 h1 (L := L) (parent.length + 1) x v [] (by omega)
    (Or.inl hx) (by simpa using hv) (by simp)
  refine ⟨v', e, seg, ?_, e2, e3, e4, by simpa using e5⟩
  have c1 : decide (x < parent.length) = true := by simp; omega
  unfold forAncestors
  simp only [c1, or_true, decide_true, check_true, Option.bind_eq_bind, Option.bind_some]
  exact e1

end RK
