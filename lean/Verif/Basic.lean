/-!
# Basics shared by all models

* constants: `/repo/include/routingkit/constants.h` lines 6-7
* checked vector access: every `v[i]` of the C++ code is modelled by `rd`/`wr`, which yield
  `none` on an out-of-bounds index (undefined behaviour in C++).
* loops with a fixed trip count: `forN` / `forRange`.
-/

namespace RK

/-- constants.h:6 `invalid_id = 4294967295u`. -/
def invalidId : Nat := 4294967295

/-- constants.h:7 `inf_weight = 2147483647u`. -/
def infWeight : Nat := 2147483647

/-- Number of values of a 32-bit `unsigned` (constants.h:10 asserts `sizeof(unsigned)==4`). -/
def u32 : Nat := 4294967296

/-- Addition of two C++ `unsigned` values (wraps modulo 2^32). -/
def add32 (a b : Nat) : Nat := (a + b) % u32

/-- Multiplication of two C++ `unsigned` values (wraps modulo 2^32). -/
def mul32 (a b : Nat) : Nat := (a * b) % u32

variable {α σ : Type}

/-- Checked read `v[i]`; `none` is an out-of-bounds access. -/
def rd (v : List α) (i : Nat) : Option α := v[i]?

/-- Checked write `v[i] = x`; `none` is an out-of-bounds access. -/
def wr (v : List α) (i : Nat) (x : α) : Option (List α) :=
  if i < v.length then some (v.set i x) else none

/-- `assert(b)` or a documented precondition; `none` if it does not hold. -/
def check (b : Bool) : Option Unit := if b then some () else none

/-- `n` iterations of a `for` loop with index `i, i+1, …`. -/
def forN (f : σ → Nat → Option σ) : Nat → Nat → σ → Option σ
  | _, 0, s => some s
  | i, n + 1, s => (f s i).bind (forN f (i + 1) n)

/-- `for(unsigned i=lo; i<hi; ++i) s = f(s,i);` -/
def forRange (lo hi : Nat) (s : σ) (f : σ → Nat → Option σ) : Option σ :=
  forN f lo (hi - lo) s

/-- `for(auto x : xs) s = f(s,x);` -/
def forEach {β : Type} (xs : List β) (s : σ) (f : σ → β → Option σ) : Option σ :=
  match xs with
  | [] => some s
  | x :: xs => (f s x).bind fun s => forEach xs s f

/-! ### Lemmas -/

theorem rd_eq_some {v : List α} {i : Nat} {x : α} :
    rd v i = some x ↔ ∃ h : i < v.length, v[i] = x := by
  simp [rd, List.getElem?_eq_some_iff]

theorem rd_lt {v : List α} {i : Nat} (h : i < v.length) : rd v i = some v[i] := by
  simp [rd, h]

theorem rd_isSome {v : List α} {i : Nat} (h : i < v.length) : ∃ x, rd v i = some x :=
  ⟨_, rd_lt h⟩

theorem rd_some_lt {v : List α} {i : Nat} {x : α} (h : rd v i = some x) : i < v.length :=
  (rd_eq_some.1 h).1

theorem wr_lt {v : List α} {i : Nat} {x : α} (h : i < v.length) :
    wr v i x = some (v.set i x) := by simp [wr, h]

theorem wr_eq_some {v w : List α} {i : Nat} {x : α} :
    wr v i x = some w ↔ i < v.length ∧ w = v.set i x := by
  unfold wr; split <;> rename_i h
  · simp [h, eq_comm]
  · simp; omega

theorem wr_length {v w : List α} {i : Nat} {x : α} (h : wr v i x = some w) :
    w.length = v.length := by
  rw [wr_eq_some] at h; simp [h.2]

theorem rd_wr {v w : List α} {i j : Nat} {x : α} (h : wr v i x = some w) :
    rd w j = if j = i then some x else rd v j := by
  rw [wr_eq_some] at h
  obtain ⟨hi, rfl⟩ := h
  unfold rd
  rw [List.getElem?_set]
  by_cases hij : i = j
  · subst hij; simp [hi]
  · rw [if_neg hij, if_neg (fun h => hij h.symm)]

theorem rd_set {v : List α} {i j : Nat} {x : α} (h : i < v.length) :
    rd (v.set i x) j = if j = i then some x else rd v j :=
  rd_wr (wr_lt h)

theorem rd_replicate {n i : Nat} {x : α} (h : i < n) : rd (List.replicate n x) i = some x := by
  simp [rd, h]

theorem list_ext_rd {v w : List α} (hl : v.length = w.length)
    (h : ∀ i, i < v.length → rd v i = rd w i) : v = w := by
  apply List.ext_getElem? 
  intro i
  by_cases hi : i < v.length
  · exact h i hi
  · simp [hi, ← hl]

@[simp] theorem check_eq_some {b : Bool} {u : Unit} : check b = some u ↔ b = true := by
  unfold check; split <;> simp_all

@[simp] theorem check_true : check true = some () := rfl

theorem forN_inv {f : σ → Nat → Option σ} (P : Nat → σ → Prop) :
    ∀ (n lo : Nat) (s : σ), P lo s →
      (∀ i s, lo ≤ i → i < lo + n → P i s → ∃ s', f s i = some s' ∧ P (i + 1) s') →
      ∃ s', forN f lo n s = some s' ∧ P (lo + n) s'
  | 0, lo, s, h0, _ => ⟨s, rfl, h0⟩
  | n + 1, lo, s, h0, hs => by
    obtain ⟨s1, e1, p1⟩ := hs lo s (Nat.le_refl _) (by omega) h0
    obtain ⟨s2, e2, p2⟩ := forN_inv P n (lo + 1) s1 p1
      (fun i s h1 h2 h3 => hs i s (by omega) (by omega) h3)
    refine ⟨s2, ?_, ?_⟩
    · simp [forN, e1, e2]
    · rw [show lo + (n + 1) = lo + 1 + n by omega]; exact p2

/-- Invariant rule for `for` loops: total correctness. -/
theorem forRange_inv {f : σ → Nat → Option σ} (P : Nat → σ → Prop) {lo hi : Nat} {s : σ}
    (hle : lo ≤ hi) (h0 : P lo s)
    (hs : ∀ i s, lo ≤ i → i < hi → P i s → ∃ s', f s i = some s' ∧ P (i + 1) s') :
    ∃ s', forRange lo hi s f = some s' ∧ P hi s' := by
  have := forN_inv P (hi - lo) lo s h0 (fun i s h1 h2 h3 => hs i s h1 (by omega) h3)
  rw [show lo + (hi - lo) = hi by omega] at this
  exact this

/-- Partial-correctness invariant rule for `for` loops. -/
theorem forN_inv' {f : σ → Nat → Option σ} (P : Nat → σ → Prop) :
    ∀ (n lo : Nat) (s r : σ), P lo s → forN f lo n s = some r →
      (∀ i s s', lo ≤ i → i < lo + n → P i s → f s i = some s' → P (i + 1) s') →
      P (lo + n) r
  | 0, lo, s, r, h0, h, _ => by simp [forN] at h; subst h; exact h0
  | n + 1, lo, s, r, h0, h, hs => by
    simp only [forN] at h
    cases e : f s lo with
    | none => simp [e] at h
    | some s1 =>
      simp [e] at h
      have := forN_inv' P n (lo + 1) s1 r (hs lo s s1 (Nat.le_refl _) (by omega) h0 e) h
        (fun i s s' h1 h2 h3 h4 => hs i s s' (by omega) (by omega) h3 h4)
      rw [show lo + (n + 1) = lo + 1 + n by omega]; exact this

theorem forRange_inv' {f : σ → Nat → Option σ} (P : Nat → σ → Prop) {lo hi : Nat} {s r : σ}
    (hle : lo ≤ hi) (h0 : P lo s) (h : forRange lo hi s f = some r)
    (hs : ∀ i s s', lo ≤ i → i < hi → P i s → f s i = some s' → P (i + 1) s') :
    P hi r := by
  have := forN_inv' P (hi - lo) lo s r h0 h (fun i s s' h1 h2 h3 h4 => hs i s s' h1 (by omega) h3 h4)
  rw [show lo + (hi - lo) = hi by omega] at this
  exact this

/-- Invariant rule for range-based `for` loops; the invariant sees the processed prefix. -/
theorem forEach_inv {β : Type} {f : σ → β → Option σ} (P : List β → σ → Prop) :
    ∀ (xs pre : List β) (s : σ), P pre s →
      (∀ pre' x post s, pre ++ xs = pre' ++ x :: post → pre.length ≤ pre'.length → P pre' s →
        ∃ s', f s x = some s' ∧ P (pre' ++ [x]) s') →
      ∃ s', forEach xs s f = some s' ∧ P (pre ++ xs) s'
  | [], pre, s, h0, _ => ⟨s, rfl, by simpa using h0⟩
  | x :: xs, pre, s, h0, hs => by
    obtain ⟨s1, e1, p1⟩ := hs pre x xs s rfl (Nat.le_refl _) h0
    obtain ⟨s2, e2, p2⟩ := forEach_inv P xs (pre ++ [x]) s1 p1
      (fun pre' y post s h1 h2 h3 => hs pre' y post s (by simpa using h1) (by simp at h2; omega) h3)
    exact ⟨s2, by simp [forEach, e1, e2], by simpa using p2⟩

end RK
