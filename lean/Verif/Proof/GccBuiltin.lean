import Verif.Model.GccBuiltin
import Verif.Model.EmulatedCas
/-! # Helper lemmas for the fallbacks of the GCC extensions -/
namespace RK
open _root_.Spec

theorem one_shl_ne {k : Nat} : (1#64 <<< k) ≠ 0#64 ↔ k < 64 := by
  rw [← BitVec.twoPow_eq]
  constructor
  · intro h
    rcases Nat.lt_or_ge k 64 with q | q
    · exact q
    · exfalso
      apply h
      apply BitVec.eq_of_getLsbD_eq
      intro i hi
      simp [BitVec.getLsbD_twoPow]
      omega
  · intro h e
    have := congrArg (fun b => BitVec.getLsbD b k) e
    simp [BitVec.getLsbD_twoPow, h] at this

theorem and_shl_ne {x : Word} {k : Nat} (hk : k < 64) : (x &&& (1#64 <<< k)) ≠ 0#64 ↔ x.getLsbD k = true := by
  have h1 := one_shl_ne.2 hk
  rw [← BitVec.twoPow_eq] at h1 ⊢
  rw [BitVec.and_twoPow]
  split
  · rename_i h; simp [h, h1]
  · rename_i h; simp [h]

theorem shl_succ (k : Nat) : (1#64 <<< k) <<< 1 = 1#64 <<< (k + 1) := (BitVec.shiftLeft_add 1#64 k 1).symm

theorem popLoop_eq (x : Word) : ∀ (d k n : Nat), k + d = 64 →
    popLoop x (d + 1) (1#64 <<< k) n = some (n + ((List.range' k d).filter fun j => x.getLsbD j).length)
  | 0, k, n, h => by
    unfold popLoop
    rw [if_neg (by rw [one_shl_ne]; omega)]
    rfl
  | d + 1, k, n, h => by
    unfold popLoop
    have hk : k < 64 := by omega
    rw [if_pos (one_shl_ne.2 hk), shl_succ, popLoop_eq x d (k + 1) _ (by omega), List.range'_succ, List.filter_cons]
    by_cases hb : x.getLsbD k = true
    · rw [if_pos ((and_shl_ne hk).2 hb), if_pos hb, List.length_cons]
      congr 1
      omega
    · rw [if_neg (fun q => hb ((and_shl_ne hk).1 q)), if_neg hb]

theorem ffsLoop_eq (x : Word) : ∀ (d k : Nat), k + d = 64 → (∀ j, j < k → x.getLsbD j = false) →
    ∃ n, ffsLoop x (d + 1) (1#64 <<< k) (k + 1) = some n ∧ IsFfs x n
  | 0, k, h, hz => by
    refine ⟨0, ?_, Or.inl ⟨rfl, ?_⟩⟩
    · unfold ffsLoop
      rw [if_neg (by rw [one_shl_ne]; omega)]
    · apply BitVec.eq_of_getLsbD_eq
      intro i hi
      rw [hz i (by omega)]
      simp
  | d + 1, k, h, hz => by
    have hk : k < 64 := by omega
    by_cases hb : x.getLsbD k = true
    · refine ⟨k + 1, ?_, Or.inr ⟨k, rfl, hb, hz⟩⟩
      unfold ffsLoop
      rw [if_pos (one_shl_ne.2 hk), if_pos ((and_shl_ne hk).2 hb)]
    · obtain ⟨n, h1, h2⟩ := ffsLoop_eq x d (k + 1) (by omega) (by
        intro j hj
        rcases Nat.lt_or_eq_of_le (Nat.le_of_lt_succ hj) with q | q
        · exact hz j q
        · subst q; simpa using hb)
      refine ⟨n, ?_, h2⟩
      unfold ffsLoop
      rw [if_pos (one_shl_ne.2 hk), if_neg (fun q => hb ((and_shl_ne hk).1 q)), shl_succ]
      exact h1

theorem filter_setWidth_low (x : BitVec 32) (l : List Nat) (hl : ∀ k ∈ l, k < 32) :
    l.filter (fun k => (x.setWidth 64).getLsbD k) = l.filter fun k => x.getLsbD k := by
  apply List.filter_congr
  intro k hk
  have := hl k hk
  rw [BitVec.getLsbD_setWidth, decide_eq_true (by omega : k < 64), Bool.true_and]

theorem filter_setWidth_high (x : BitVec 32) (l : List Nat) (hl : ∀ k ∈ l, 32 ≤ k) :
    l.filter (fun k => (x.setWidth 64).getLsbD k) = [] := by
  rw [List.filter_eq_nil_iff]
  intro k hk
  rw [BitVec.getLsbD_setWidth, BitVec.getLsbD_of_ge _ _ (hl k hk), Bool.and_false]
  exact Bool.false_ne_true

theorem oneBits_setWidth (x : BitVec 32) : oneBits (x.setWidth 64) = oneBits x := by
  have h : List.range 64 = List.range 32 ++ List.range' 32 32 := by decide
  unfold oneBits
  rw [h, List.filter_append, List.length_append, filter_setWidth_low x _ (fun k hk => List.mem_range.1 hk),
    filter_setWidth_high x _ (fun k hk => (List.mem_range'_1.1 hk).1), List.length_nil, Nat.add_zero]

theorem eight {v : List Word} (h : v.length = 8) : ∃ a b c d e f g i, v = [a, b, c, d, e, f, g, i] := by
  match v, h with
  | [a, b, c, d, e, f, g, i], _ => exact ⟨a, b, c, d, e, f, g, i, rfl⟩

/-! ### Compare and swap -/

variable {L : Type} {p : Client L}

theorem put_same {α : Type} (f : Nat → α) (i : Nat) (x : α) : put f i x i = x := if_pos rfl
theorem put_other {α : Type} (f : Nat → α) {i j : Nat} (x : α) (h : j ≠ i) : put f i x j = f j := if_neg h

/-- The private part of a thread once its result is known. -/
def CasPc.abs (p : Client L) (l : L) : CasPc → L
  | .leaving b => p.swapped l b
  | _ => l

/-- The atomic state that corresponds to a state of the emulation. -/
def EmuState.abs (p : Client L) (s : EmuState L) : Shared L := ⟨s.mem, fun t => (s.pc t).abs p (s.loc t)⟩

structure EmuInv (p : Client L) (s : EmuState L) : Prop where
  owner : ∀ t, s.pc t ≠ .out ↔ s.owner = some t
  inside : ∀ t, s.pc t ≠ .out → ∃ a e d, p.next (s.loc t) = some (.cas a e d)
  matched : ∀ t a e d, s.pc t = .matched → p.next (s.loc t) = some (.cas a e d) → s.mem a = e

theorem EmuInv.quiet (s : Shared L) : EmuInv p (EmuState.quiet s) :=
  ⟨fun _ => by simp [EmuState.quiet], fun _ h => absurd rfl h, fun _ _ _ _ h => by cases h⟩

theorem EmuInv.step {s s' : EmuState L} {t : Nat} (h : EmuInv p s) (e : EmuStep p t s s') : EmuInv p s' := by
  have alone : s.pc t ≠ .out → ∀ t', t' ≠ t → s.pc t' = .out := by
    intro h1 t' hne
    rcases Classical.em (s.pc t' = .out) with q | q
    · exact q
    · have e1 := (h.owner t).1 h1
      have e2 := (h.owner t').1 q
      rw [e1] at e2
      exact absurd (Option.some.inj e2).symm hne
  cases e with
  | load a h1 h2 =>
    refine ⟨h.owner, fun t' q => ?_, fun t' a' e' d' q r => ?_⟩
    · by_cases ht : t' = t
      · subst ht; exact absurd h1 q
      · have := h.inside t' q
        simpa only [put_other _ _ ht] using this
    · by_cases ht : t' = t
      · subst ht; rw [h1] at q; cases q
      · simp only [put_other _ _ ht] at r
        exact h.matched t' a' e' d' q r
  | lock a e d h1 h2 h3 =>
    refine ⟨fun t' => ?_, fun t' q => ?_, fun t' a' e' d' q r => ?_⟩
    · by_cases ht : t' = t
      · subst ht; simp [put_same]
      · simp only [put_other _ _ ht, h.owner t', h3]
        constructor
        · intro q; cases q
        · intro q; exact absurd (Option.some.inj q).symm ht
    · by_cases ht : t' = t
      · subst ht; exact ⟨_, _, _, h2⟩
      · simp only [put_other _ _ ht] at q
        exact h.inside t' q
    · by_cases ht : t' = t
      · subst ht; simp only [put_same] at q; cases q
      · simp only [put_other _ _ ht] at q
        exact h.matched t' a' e' d' q r
  | equal a e d h1 h2 h3 =>
    have hin : s.pc t ≠ .out := by rw [h1]; intro q; cases q
    refine ⟨fun t' => ?_, fun t' q => ?_, fun t' a' e' d' q r => ?_⟩
    · by_cases ht : t' = t
      · subst ht; simp [put_same, (h.owner t').1 hin]
      · simp only [put_other _ _ ht, h.owner t']
    · by_cases ht : t' = t
      · subst ht; exact ⟨_, _, _, h2⟩
      · simp only [put_other _ _ ht] at q
        exact h.inside t' q
    · by_cases ht : t' = t
      · subst ht
        have r' : p.next (s.loc t') = some (.cas a' e' d') := r
        rw [h2] at r'
        cases r'
        exact h3
      · simp only [put_other _ _ ht] at q
        exact h.matched t' a' e' d' q r
  | differ a e d h1 h2 h3 =>
    have hin : s.pc t ≠ .out := by rw [h1]; intro q; cases q
    refine ⟨fun t' => ?_, fun t' q => ?_, fun t' a' e' d' q r => ?_⟩
    · by_cases ht : t' = t
      · subst ht; simp [put_same, (h.owner t').1 hin]
      · simp only [put_other _ _ ht, h.owner t']
    · by_cases ht : t' = t
      · subst ht; exact ⟨_, _, _, h2⟩
      · simp only [put_other _ _ ht] at q
        exact h.inside t' q
    · by_cases ht : t' = t
      · subst ht; simp only [put_same] at q; cases q
      · simp only [put_other _ _ ht] at q
        exact h.matched t' a' e' d' q r
  | store a e d h1 h2 =>
    have hin : s.pc t ≠ .out := by rw [h1]; intro q; cases q
    refine ⟨fun t' => ?_, fun t' q => ?_, fun t' a' e' d' q r => ?_⟩
    · by_cases ht : t' = t
      · subst ht; simp [put_same, (h.owner t').1 hin]
      · simp only [put_other _ _ ht, h.owner t']
    · by_cases ht : t' = t
      · subst ht; exact ⟨_, _, _, h2⟩
      · simp only [put_other _ _ ht] at q
        exact h.inside t' q
    · by_cases ht : t' = t
      · subst ht; simp only [put_same] at q; cases q
      · simp only [put_other _ _ ht] at q
        rw [alone hin t' ht] at q
        cases q
  | unlock b h1 =>
    have hin : s.pc t ≠ .out := by rw [h1]; intro q; cases q
    refine ⟨fun t' => ?_, fun t' q => ?_, fun t' a' e' d' q r => ?_⟩
    · by_cases ht : t' = t
      · subst ht; simp [put_same]
      · simp [put_other _ _ ht, alone hin t' ht]
    · by_cases ht : t' = t
      · subst ht; simp only [put_same] at q; exact absurd rfl q
      · simp only [put_other _ _ ht] at q
        exact absurd (alone hin t' ht) q
    · by_cases ht : t' = t
      · subst ht; simp only [put_same] at q; cases q
      · simp only [put_other _ _ ht] at q
        rw [alone hin t' ht] at q
        cases q

theorem shared_ext {s s' : Shared L} (h1 : s.mem = s'.mem) (h2 : ∀ t, s.loc t = s'.loc t) : s = s' := by
  obtain ⟨m, l⟩ := s
  obtain ⟨m', l'⟩ := s'
  have h1' : m = m' := h1
  have h2' : l = l' := funext h2
  rw [h1', h2']

/-- Each step of the emulation is a step of the builtin or none. -/
theorem EmuInv.sim {s s' : EmuState L} {t : Nat} (h : EmuInv p s) (e : EmuStep p t s s') :
    s'.abs p = s.abs p ∨ AtomicStep p (s.abs p) (s'.abs p) := by
  have plain : ∀ {q : CasPc}, s.pc t = q → (∀ b, q ≠ .leaving b) → (s.abs p).loc t = s.loc t := by
    intro q hq hb
    show (s.pc t).abs p (s.loc t) = s.loc t
    rw [hq]
    cases q with
    | leaving b => exact absurd rfl (hb b)
    | _ => rfl
  cases e with
  | load a h1 h2 =>
    right
    have hl := plain h1 (fun _ q => by cases q)
    have st := AtomicStep.load (p := p) (s := s.abs p) t a (by rw [hl]; exact h2)
    have : EmuState.abs p ⟨s.mem, s.owner, put s.loc t (p.loaded (s.loc t) (s.mem a)), s.pc⟩ =
        ⟨(s.abs p).mem, put (s.abs p).loc t (p.loaded ((s.abs p).loc t) ((s.abs p).mem a))⟩ := by
      refine shared_ext rfl fun t' => ?_
      by_cases ht : t' = t
      · subst ht
        show (s.pc t').abs p (put s.loc t' _ t') = put _ t' _ t'
        rw [put_same, put_same, h1, hl]; rfl
      · show (s.pc t').abs p (put s.loc t _ t') = put _ t _ t'
        rw [put_other _ _ ht, put_other _ _ ht]; rfl
    rw [this]
    exact st
  | lock a e d h1 h2 h3 =>
    left
    refine shared_ext rfl fun t' => ?_
    show (put s.pc t .locked t').abs p (s.loc t') = (s.pc t').abs p (s.loc t')
    by_cases ht : t' = t
    · subst ht; rw [put_same, h1]; rfl
    · rw [put_other _ _ ht]
  | equal a e d h1 h2 h3 =>
    left
    refine shared_ext rfl fun t' => ?_
    show (put s.pc t .matched t').abs p (s.loc t') = (s.pc t').abs p (s.loc t')
    by_cases ht : t' = t
    · subst ht; rw [put_same, h1]; rfl
    · rw [put_other _ _ ht]
  | differ a e d h1 h2 h3 =>
    right
    have hl := plain h1 (fun _ q => by cases q)
    have st := AtomicStep.failure (p := p) (s := s.abs p) t a e d (by rw [hl]; exact h2) h3
    have : EmuState.abs p ⟨s.mem, s.owner, s.loc, put s.pc t (.leaving false)⟩ =
        ⟨(s.abs p).mem, put (s.abs p).loc t (p.swapped ((s.abs p).loc t) false)⟩ := by
      refine shared_ext rfl fun t' => ?_
      show (put s.pc t (.leaving false) t').abs p (s.loc t') = put _ t _ t'
      by_cases ht : t' = t
      · subst ht; rw [put_same, put_same, hl]; rfl
      · rw [put_other _ _ ht, put_other _ _ ht]; rfl
    rw [this]
    exact st
  | store a e d h1 h2 =>
    right
    have hl := plain h1 (fun _ q => by cases q)
    have st := AtomicStep.success (p := p) (s := s.abs p) t a e d (by rw [hl]; exact h2) (h.matched t a e d h1 h2)
    have : EmuState.abs p ⟨put s.mem a d, s.owner, s.loc, put s.pc t (.leaving true)⟩ =
        ⟨put (s.abs p).mem a d, put (s.abs p).loc t (p.swapped ((s.abs p).loc t) true)⟩ := by
      refine shared_ext rfl fun t' => ?_
      show (put s.pc t (.leaving true) t').abs p (s.loc t') = put _ t _ t'
      by_cases ht : t' = t
      · subst ht; rw [put_same, put_same, hl]; rfl
      · rw [put_other _ _ ht, put_other _ _ ht]; rfl
    rw [this]
    exact st
  | unlock b h1 =>
    left
    refine shared_ext rfl fun t' => ?_
    show (put s.pc t .out t').abs p (put s.loc t _ t') = (s.pc t').abs p (s.loc t')
    by_cases ht : t' = t
    · subst ht; rw [put_same, put_same, h1]; rfl
    · rw [put_other _ _ ht, put_other _ _ ht]

theorem emu_run {s : Shared L} {e : EmuState L} (h : Steps (EmuStep.any p) (.quiet s) e) :
    EmuInv p e ∧ Steps (AtomicStep p) s (e.abs p) := by
  generalize hq : EmuState.quiet s = q at h
  induction h with
  | refl => subst hq; exact ⟨EmuInv.quiet s, .refl _⟩
  | snoc _ hst ih =>
    obtain ⟨t, hst⟩ := hst
    obtain ⟨h1, h2⟩ := ih
    refine ⟨h1.step hst, ?_⟩
    rcases h1.sim hst with q | q
    · rw [q]; exact h2
    · exact .snoc h2 q

theorem emu_ext {e e' : EmuState L} (h1 : e.mem = e'.mem) (h2 : e.owner = e'.owner) (h3 : e.loc = e'.loc)
    (h4 : ∀ t, e.pc t = e'.pc t) : e = e' := by
  obtain ⟨a, b, c, d⟩ := e
  obtain ⟨a', b', c', d'⟩ := e'
  have h4' : d = d' := funext h4
  simp only at h1 h2 h3
  rw [h1, h2, h3, h4']

theorem atomic_emu {s s' : Shared L} (h : AtomicStep p s s') : Steps (EmuStep.any p) (.quiet s) (.quiet s') := by
  cases h with
  | load t a h1 => exact .snoc (.refl _) ⟨t, .load (s := .quiet s) a rfl h1⟩
  | success t a e d h1 h2 =>
    refine .snoc (.snoc (.snoc (.snoc (.refl _) ⟨t, .lock (s := .quiet s) a e d rfl h1 rfl⟩)
      ⟨t, .equal a e d (put_same _ _ _) h1 h2⟩) ⟨t, .store a e d (put_same _ _ _) h1⟩) ⟨t, ?_⟩
    have st := EmuStep.unlock (p := p) (t := t)
      (s := ⟨put s.mem a d, some t, s.loc, put (put (put (fun _ => CasPc.out) t .locked) t .matched) t (.leaving true)⟩)
      true (put_same _ _ _)
    have : EmuState.quiet ⟨put s.mem a d, put s.loc t (p.swapped (s.loc t) true)⟩ =
        ⟨put s.mem a d, none, put s.loc t (p.swapped (s.loc t) true),
          put (put (put (put (fun _ => CasPc.out) t .locked) t .matched) t (.leaving true)) t .out⟩ := by
      refine emu_ext rfl rfl rfl fun t' => ?_
      by_cases ht : t' = t
      · subst ht; exact (put_same _ _ _).symm
      · simp only [put_other _ _ ht]; rfl
    rw [this]
    exact st
  | failure t a e d h1 h2 =>
    refine .snoc (.snoc (.snoc (.refl _) ⟨t, .lock (s := .quiet s) a e d rfl h1 rfl⟩)
      ⟨t, .differ a e d (put_same _ _ _) h1 h2⟩) ⟨t, ?_⟩
    have st := EmuStep.unlock (p := p) (t := t)
      (s := ⟨s.mem, some t, s.loc, put (put (fun _ => CasPc.out) t .locked) t (.leaving false)⟩)
      false (put_same _ _ _)
    have : EmuState.quiet ⟨s.mem, put s.loc t (p.swapped (s.loc t) false)⟩ =
        ⟨s.mem, none, put s.loc t (p.swapped (s.loc t) false),
          put (put (put (fun _ => CasPc.out) t .locked) t (.leaving false)) t .out⟩ := by
      refine emu_ext rfl rfl rfl fun t' => ?_
      by_cases ht : t' = t
      · subst ht; exact (put_same _ _ _).symm
      · simp only [put_other _ _ ht]; rfl
    rw [this]
    exact st

theorem steps_trans {σ : Type} {r : σ → σ → Prop} {a b c : σ} (h1 : Steps r a b) (h2 : Steps r b c) : Steps r a c := by
  induction h2 with
  | refl => exact h1
  | snoc _ h ih => exact .snoc ih h

theorem EmuInv.progress {s : EmuState L} (h : EmuInv p s) (t : Nat) (ht : s.pc t ≠ .out ∨ p.next (s.loc t) ≠ none) :
    ∃ t' s', (t' = t ∨ s.owner = some t') ∧ EmuStep p t' s s' := by
  have inside : ∀ t', s.pc t' ≠ .out → ∃ s', EmuStep p t' s s' := by
    intro t' hq
    obtain ⟨a, e, d, hn⟩ := h.inside t' hq
    cases hp : s.pc t' with
    | out => exact absurd hp hq
    | locked =>
      by_cases hm : s.mem a = e
      · exact ⟨_, .equal a e d hp hn hm⟩
      · exact ⟨_, .differ a e d hp hn hm⟩
    | matched => exact ⟨_, .store a e d hp hn⟩
    | leaving b => exact ⟨_, .unlock b hp⟩
  by_cases hq : s.pc t = .out
  · have hn : p.next (s.loc t) ≠ none := ht.resolve_left (fun q => q hq)
    cases hp : p.next (s.loc t) with
    | none => exact absurd hp hn
    | some op =>
      cases op with
      | load a => exact ⟨t, _, Or.inl rfl, .load a hq hp⟩
      | cas a e d =>
        cases ho : s.owner with
        | none => exact ⟨t, _, Or.inl rfl, .lock a e d hq hp ho⟩
        | some t' =>
          obtain ⟨s', hs⟩ := inside t' ((h.owner t').2 ho)
          exact ⟨t', s', Or.inr rfl, hs⟩
  · obtain ⟨s', hs⟩ := inside t hq
    exact ⟨t, s', Or.inl rfl, hs⟩

end RK
