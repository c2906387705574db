import Verif.Model.IdSetQueue
import Mathlib.Tactic.Ring
import Mathlib.Tactic.Linarith
import Mathlib.Data.List.Perm.Subperm
/-! The implicit tree invariant of `IDSetMinQueue`. -/
namespace RK
namespace IDSetMinQueue

/-- bit of node `x`, false outside of the array -/
def D (data : List Bool) (x : Nat) : Bool := (rd data x).getD false

theorem D_eq {data : List Bool} {x : Nat} {b : Bool} (h : rd data x = some b) : D data x = b := by
  simp [D, h]

theorem rd_D {data : List Bool} {x : Nat} (h : x < data.length) : rd data x = some (D data x) := by
  obtain ⟨b, hb⟩ := rd_isSome h
  rw [D_eq hb, hb]

theorem D_true_lt {data : List Bool} {x : Nat} (h : D data x = true) : x < data.length := by
  by_contra hx
  have : rd data x = none := by
    simp only [rd]; exact List.getElem?_eq_none (by omega)
  simp [D, this] at h

theorem D_set {data : List Bool} {x y : Nat} {b : Bool} (h : x < data.length) :
    D (data.set x b) y = if y = x then b else D data y := by
  unfold D; rw [rd_set h]; split <;> rfl

/-- the bit of inner node `x` is correct -/
def TreeAt (d : Nat → Bool) (x : Nat) : Prop := d x = (d (2 * x) || d (2 * x + 1))

/-- node `x` is in the subtree layer with `2^i` nodes, `2^j` leaves below each -/
structure Lvl (off i j x : Nat) : Prop where
  off : 2 ^ i * 2 ^ j = off
  lo : 2 ^ i ≤ x
  hi : x < 2 ^ (i + 1)

theorem Lvl.up {off i j x} (h : Lvl off (i + 1) j x) : Lvl off i (j + 1) (x / 2) := by
  have := h.off; have := h.lo; have := h.hi
  refine ⟨by rw [← h.off]; ring, ?_, ?_⟩
  · rw [Nat.le_div_iff_mul_le (by omega)]; rw [pow_succ] at *; assumption
  · rw [Nat.div_lt_iff_lt_mul (by omega)]; rw [pow_succ (n := i + 1)] at *; assumption

theorem Lvl.left {off i j x} (h : Lvl off i (j + 1) x) : Lvl off (i + 1) j (2 * x) := by
  have := h.lo; have := h.hi
  refine ⟨by rw [← h.off]; ring, ?_, ?_⟩
  · rw [pow_succ]; omega
  · rw [pow_succ (n := i + 1)]; omega

theorem Lvl.right {off i j x} (h : Lvl off i (j + 1) x) : Lvl off (i + 1) j (2 * x + 1) := by
  have := h.lo; have := h.hi
  refine ⟨by rw [← h.off]; ring, ?_, ?_⟩
  · rw [pow_succ]; omega
  · rw [pow_succ (n := i + 1)]; omega

theorem Lvl.leaf {off i x} (h : Lvl off i 0 x) : off ≤ x ∧ x < 2 * off := by
  have := h.lo; have := h.hi; have h3 := h.off
  rw [pow_succ] at *
  omega

theorem Lvl.inner {off i j x} (h : Lvl off i (j + 1) x) : 1 ≤ x ∧ x < off := by
  have h1 := h.lo; have h2 := h.hi; have h3 := h.off
  have h4 : 1 ≤ 2 ^ i := Nat.one_le_two_pow
  refine ⟨by omega, ?_⟩
  have h5 : 2 ^ i * 2 ^ (j + 1) = 2 ^ (i + 1) * 2 ^ j := by ring
  have h6 : 1 ≤ 2 ^ j := Nat.one_le_two_pow
  have h7 : 2 ^ (i + 1) * 1 ≤ 2 ^ (i + 1) * 2 ^ j := Nat.mul_le_mul_left _ h6
  omega

theorem Lvl.pos {off i j x} (h : Lvl off i j x) : 1 ≤ x :=
  le_trans Nat.one_le_two_pow h.lo

theorem Lvl.of_leaf {k x} (h1 : 2 ^ k ≤ x) (h2 : x < 2 * 2 ^ k) : Lvl (2 ^ k) k 0 x :=
  ⟨by simp, h1, by rw [pow_succ]; omega⟩

theorem Lvl.first_ge {off i j x} (h : Lvl off i j x) : off ≤ x * 2 ^ j := by
  rw [← h.off]; exact Nat.mul_le_mul_right _ h.lo

theorem Lvl.last_le {off i j x} (h : Lvl off i j x) : (x + 1) * 2 ^ j ≤ 2 * off := by
  rw [← h.off]
  have h1 : x + 1 ≤ 2 ^ (i + 1) := h.hi
  calc (x + 1) * 2 ^ j ≤ 2 ^ (i + 1) * 2 ^ j := Nat.mul_le_mul_right _ h1
    _ = 2 * (2 ^ i * 2 ^ j) := by ring

/-- a node whose bit is unset has only unset leaves -/
theorem leaves_false {d : Nat → Bool} {off : Nat} : ∀ {j i x : Nat}, Lvl off i j x →
    (∀ y, x ≤ y → y < off → TreeAt d y) → d x = false →
    ∀ l, x * 2 ^ j ≤ l → l < (x + 1) * 2 ^ j → d l = false
  | 0, i, x, h, _, hx, l, h1, h2 => by
    have : l = x := by simp at h1 h2; omega
    rw [this, hx]
  | j + 1, i, x, h, ht, hx, l, h1, h2 => by
    have hin := h.inner
    have := ht x (le_refl _) hin.2
    unfold TreeAt at this
    rw [hx] at this
    have hl : d (2 * x) = false := by revert this; cases d (2 * x) <;> simp
    have hr : d (2 * x + 1) = false := by revert this; cases d (2 * x + 1) <;> simp
    by_cases hm : l < (2 * x + 1) * 2 ^ j
    · exact leaves_false h.left (fun y h1 h2 => ht y (by omega) h2) hl l
        (by have : 2 * x * 2 ^ j = x * 2 ^ (j + 1) := by ring
            omega) hm
    · exact leaves_false h.right (fun y h1 h2 => ht y (by omega) h2) hr l (by omega)
        (by have : (2 * x + 1 + 1) * 2 ^ j = (x + 1) * 2 ^ (j + 1) := by ring
            omega)

/-- a node whose leaves are all unset is unset -/
theorem node_false {d : Nat → Bool} {off : Nat} : ∀ {j i x : Nat}, Lvl off i j x →
    (∀ y, x ≤ y → y < off → TreeAt d y) →
    (∀ l, x * 2 ^ j ≤ l → l < (x + 1) * 2 ^ j → d l = false) → d x = false
  | 0, i, x, h, _, hl => hl x (by simp) (by simp)
  | j + 1, i, x, h, ht, hl => by
    have hin := h.inner
    have hx := ht x (le_refl _) hin.2
    unfold TreeAt at hx
    have h1 : 2 * x * 2 ^ j = x * 2 ^ (j + 1) := by ring
    have h2 : (2 * x + 1 + 1) * 2 ^ j = (x + 1) * 2 ^ (j + 1) := by ring
    have h3 : (2 * x + 1) * 2 ^ j = 2 * x * 2 ^ j + 2 ^ j := by ring
    have h4 : (2 * x + 1 + 1) * 2 ^ j = (2 * x + 1) * 2 ^ j + 2 ^ j := by ring
    have e1 := node_false h.left (fun y h1 h2 => ht y (by omega) h2)
      (fun l a b => hl l (by omega) (by omega))
    have e2 := node_false h.right (fun y h1 h2 => ht y (by omega) h2)
      (fun l a b => hl l (by omega) (by omega))
    rw [hx, e1, e2]; rfl

theorem pushLoop_spec {off : Nat} : ∀ {fuel : Nat} {data : List Bool} {x : Nat}, x < fuel → 1 ≤ x →
    x < data.length → D data x = false →
    (∀ z, 1 ≤ z → z < off → z ≠ x → TreeAt (D data) z) →
    (x < off → (D data (2 * x) || D data (2 * x + 1)) = true) → (x < 2 * off) →
    (off ≤ data.length) →
    ∃ data', pushLoop fuel data x = some data' ∧ data'.length = data.length ∧
      (∀ z, 1 ≤ z → z < off → TreeAt (D data') z) ∧
      (∀ l, off ≤ l → D data' l = (D data l || decide (l = x)))
  | 0, _, _, hf, _, _, _, _, _, _, _ => by omega
  | fuel + 1, data, x, hf, hx1, hx, hfalse, ht, hc, h2off, hlen => by
    unfold pushLoop
    rw [rd_D hx, hfalse]
    simp only [Option.bind_eq_bind, Option.bind_some, Bool.not_false, check_true, wr_lt hx]
    have hD : ∀ y, D (data.set x true) y = if y = x then true else D data y := fun y => D_set hx
    have htx : ∀ z, 1 ≤ z → z < off → z ≠ x / 2 → TreeAt (D (data.set x true)) z := by
      intro z hz1 hz hz2
      unfold TreeAt
      have n1 : 2 * z ≠ x := by omega
      have n2 : 2 * z + 1 ≠ x := by omega
      rw [hD, hD, hD, if_neg n1, if_neg n2]
      by_cases hzx : z = x
      · rw [if_pos hzx, hzx, hc (by omega)]
      · rw [if_neg hzx]; exact ht z hz1 hz hzx
    have hpar : x ≠ 1 → (D (data.set x true) (2 * (x / 2)) || D (data.set x true) (2 * (x / 2) + 1)) = true := by
      intro _
      rw [hD, hD]
      rcases Nat.mod_two_eq_zero_or_one x with hm | hm
      · rw [if_pos (by omega)]; rfl
      · rw [if_pos (show 2 * (x / 2) + 1 = x by omega)]; simp
    by_cases hroot : x = 1
    · rw [if_pos hroot]
      refine ⟨_, rfl, by simp, ?_, ?_⟩
      · intro z h1 h2; exact htx z h1 h2 (by omega)
      · intro l hl; rw [hD]; by_cases h : l = x <;> simp [h]
    · rw [if_neg hroot]
      have hlt : x / 2 < (data.set x true).length := by simp; omega
      rw [rd_D hlt]
      simp only [Option.bind_some]
      cases hb : D (data.set x true) (x / 2) with
      | true =>
        simp only [if_true]
        refine ⟨_, rfl, by simp, ?_, ?_⟩
        · intro z h1 h2
          by_cases hz : z = x / 2
          · unfold TreeAt; rw [hz, hb, hpar hroot]
          · exact htx z h1 h2 hz
        · intro l hl; rw [hD]; by_cases h : l = x <;> simp [h]
      | false =>
        simp only [Bool.false_eq_true, if_false]
        obtain ⟨data', e, h1, h2, h3⟩ := pushLoop_spec (off := off) (fuel := fuel)
          (data := data.set x true) (x := x / 2) (by omega) (by omega) hlt hb htx
          (fun _ => hpar hroot) (by omega) (by simpa using hlen)
        refine ⟨data', e, by simpa using h1, h2, ?_⟩
        intro l hl
        rw [h3 l hl, hD]
        have : l ≠ x / 2 := by omega
        by_cases h : l = x <;> simp [h, this]

theorem popUp_spec {off : Nat} : ∀ {fuel : Nat} {data : List Bool} {i j x : Nat}, x < fuel →
    Lvl off i j x → D data x = true →
    (∀ z, 1 ≤ z → z < off → z ≠ x → TreeAt (D data) z) →
    (x < off → D data (2 * x) = false ∧ D data (2 * x + 1) = false) →
    (∀ l, off ≤ l → l < (x + 1) * 2 ^ j → l ≠ x → D data l = false) →
    off ≤ data.length → (data.length % 2 = 0 ∨ off = 1) →
    ∃ data' r, popUp fuel data x = some (data', r) ∧ data'.length = data.length ∧
      (∀ z, 1 ≤ z → z < off → TreeAt (D data') z) ∧
      (∀ l, off ≤ l → D data' l = (D data l && decide (l ≠ x))) ∧
      (match r with
       | none => ∀ l, off ≤ l → l < 2 * off → D data' l = false
       | some y => y % 2 = 0 ∧ ∃ i' j', Lvl off i' j' (y + 1) ∧ D data' (y + 1) = true ∧
          ∀ l, off ≤ l → l < (y + 1) * 2 ^ j' → D data' l = false)
  | 0, _, _, _, _, hf, _, _, _, _, _, _, _ => by omega
  | fuel + 1, data, i, j, x, hf, hlvl, hx, ht, hch, hleft, hlen, hev => by
    have hxl := D_true_lt hx
    unfold popUp
    rw [rd_D hxl, hx]
    simp only [Option.bind_eq_bind, Option.bind_some, check_true, wr_lt hxl]
    generalize hd : data.set x false = data1
    have hD : ∀ y, D data1 y = if y = x then false else D data y := fun y => by
      rw [← hd]; exact D_set hxl
    have hlen1 : data1.length = data.length := by rw [← hd]; simp
    have hx1 : 1 ≤ x := hlvl.pos
    have htx : ∀ z, 1 ≤ z → z < off → z ≠ x / 2 → TreeAt (D data1) z := by
      intro z hz1 hz hz2
      unfold TreeAt
      rw [hD, hD, hD, if_neg (show 2 * z ≠ x by omega), if_neg (show 2 * z + 1 ≠ x by omega)]
      by_cases hzx : z = x
      · obtain ⟨a, b⟩ := hch (by omega)
        rw [if_pos hzx, hzx, a, b]; rfl
      · rw [if_neg hzx]; exact ht z hz1 hz hzx
    have hleft1 : ∀ l, off ≤ l → l < (x + 1) * 2 ^ j → D data1 l = false := by
      intro l h1 h2
      rw [hD]
      by_cases h : l = x
      · rw [if_pos h]
      · rw [if_neg h]; exact hleft l h1 h2 h
    have hleaf1 : ∀ l, off ≤ l → D data1 l = (D data l && decide (l ≠ x)) := by
      intro l hl; rw [hD]; by_cases h : l = x <;> simp [h]
    by_cases hroot : x = 1
    · rw [if_pos hroot]
      refine ⟨_, none, rfl, hlen1, ?_, hleaf1, ?_⟩
      · intro z h1 h2; exact htx z h1 h2 (by omega)
      · have hi0 : i = 0 := by
          by_contra hi
          have h2 := hlvl.lo
          have : 2 ^ 1 ≤ 2 ^ i := Nat.pow_le_pow_right (by omega) (by omega)
          omega
        subst hi0
        have hj := hlvl.off
        intro l h1 h2
        exact hleft1 l h1 (by rw [hroot]; simp at hj; omega)
    · rw [if_neg hroot]
      obtain ⟨i', rfl⟩ : ∃ i', i = i' + 1 := by
        cases i with
        | zero => have := hlvl.hi; simp at this; omega
        | succ i => exact ⟨i, rfl⟩
      have hup := hlvl.up
      have hin := hup.inner
      have key : D data1 (2 * (x / 2)) = false → D data1 (2 * (x / 2) + 1) = false →
          (∀ l, off ≤ l → l < (x / 2 + 1) * 2 ^ (j + 1) → D data1 l = false) →
          ∃ data' r, popUp fuel data1 (x / 2) = some (data', r) ∧ data'.length = data.length ∧
            (∀ z, 1 ≤ z → z < off → TreeAt (D data') z) ∧
            (∀ l, off ≤ l → D data' l = (D data l && decide (l ≠ x))) ∧
            (match r with
             | none => ∀ l, off ≤ l → l < 2 * off → D data' l = false
             | some y => y % 2 = 0 ∧ ∃ i' j', Lvl off i' j' (y + 1) ∧ D data' (y + 1) = true ∧
                ∀ l, off ≤ l → l < (y + 1) * 2 ^ j' → D data' l = false) := by
        intro ha hb hl
        have hpt : D data1 (x / 2) = true := by
          rw [hD, if_neg (by omega)]
          have := ht (x / 2) hin.1 hin.2 (by omega)
          unfold TreeAt at this
          rw [this]
          rcases Nat.mod_two_eq_zero_or_one x with hm | hm
          · rw [show 2 * (x / 2) = x by omega, hx]; rfl
          · rw [show 2 * (x / 2) + 1 = x by omega, hx]; simp
        obtain ⟨data', r, e, h1, h2, h3, h4⟩ := popUp_spec (fuel := fuel) (data := data1) (by omega)
          hup hpt htx (fun _ => ⟨ha, hb⟩) (fun l h1 h2 _ => hl l h1 h2) (by omega)
          (by rw [hlen1]; exact hev)
        refine ⟨data', r, e, by omega, h2, ?_, h4⟩
        intro l hl
        rw [h3 l hl, hleaf1 l hl]
        have : l ≠ x / 2 := by omega
        simp [this]
      have htge : ∀ s, x / 2 < s → ∀ y, s ≤ y → y < off → TreeAt (D data1) y := by
        intro s hs y hy hyo
        exact htx y (by omega) hyo (by omega)
      by_cases hm : x % 2 = 0
      · rw [if_pos hm]
        have hsib : Lvl off (i' + 1) j (x + 1) := by
          refine ⟨hlvl.off, by have := hlvl.lo; omega, ?_⟩
          have h1 := hlvl.hi
          rw [pow_succ] at h1 ⊢; omega
        have hxl1 : x + 1 < data1.length := by
          rw [hlen1]
          rcases hev with h | h
          · omega
          · omega
        rw [rd_D hxl1]
        simp only [Option.bind_some]
        cases hc : D data1 (x + 1) with
        | true =>
          simp only [if_true]
          refine ⟨data1, some x, rfl, hlen1, ?_, hleaf1, hm, i' + 1, j, hsib, hc, hleft1⟩
          intro z h1 h2
          by_cases hz : z = x / 2
          · unfold TreeAt
            rw [hz, show 2 * (x / 2) + 1 = x + 1 by omega, hc, Bool.or_true, hD, if_neg (by omega)]
            have := ht (x / 2) hin.1 hin.2 (by omega)
            unfold TreeAt at this
            rw [this, show 2 * (x / 2) = x by omega, hx]; rfl
          · exact htx z h1 h2 hz
        | false =>
          simp only [Bool.false_eq_true, if_false]
          refine key ?_ ?_ ?_
          · rw [show 2 * (x / 2) = x by omega, hD, if_pos rfl]
          · rw [show 2 * (x / 2) + 1 = x + 1 by omega]; exact hc
          · intro l h1 h2
            by_cases h3 : l < (x + 1) * 2 ^ j
            · exact hleft1 l h1 h3
            · refine leaves_false hsib (htge _ (by omega)) hc l (by omega) ?_
              have : (x + 1 + 1) * 2 ^ j = (x / 2 + 1) * 2 ^ (j + 1) := by
                have : x + 1 + 1 = (x / 2 + 1) * 2 := by omega
                rw [this]; ring
              omega
      · rw [if_neg hm]
        have hsib : Lvl off (i' + 1) j (x - 1) := by
          have h1 := hlvl.lo
          refine ⟨hlvl.off, ?_, by have := hlvl.hi; omega⟩
          rw [pow_succ] at h1 ⊢; omega
        have hxl1 : x - 1 < data1.length := by omega
        have hsf : D data1 (x - 1) = false := by
          refine node_false hsib (htge _ (by omega)) ?_
          intro l h1 h2
          refine hleft1 l (le_trans hsib.first_ge h1) ?_
          have : (x - 1 + 1) * 2 ^ j ≤ (x + 1) * 2 ^ j := Nat.mul_le_mul_right _ (by omega)
          omega
        rw [rd_D hxl1, hsf]
        simp only [Option.bind_some, Bool.not_false, check_true]
        refine key ?_ ?_ ?_
        · rw [show 2 * (x / 2) = x - 1 by omega]; exact hsf
        · rw [show 2 * (x / 2) + 1 = x by omega, hD, if_pos rfl]
        · intro l h1 h2
          refine hleft1 l h1 ?_
          have : (x + 1) * 2 ^ j = (x / 2 + 1) * 2 ^ (j + 1) := by
            have : x + 1 = (x / 2 + 1) * 2 := by omega
            rw [this]; ring
          omega

theorem popDown_spec {off : Nat} {data : List Bool}
    (ht : ∀ z, 1 ≤ z → z < off → TreeAt (D data) z) (hlen : data.length % 2 = 0 ∨ off = 1) :
    ∀ {j fuel i x : Nat}, j < fuel → Lvl off i j x → D data x = true →
    (∀ l, off ≤ l → l < x * 2 ^ j → D data l = false) →
    ∃ l, popDown fuel data off x = some l ∧ off ≤ l ∧ l < 2 * off ∧ D data l = true ∧
      ∀ l', off ≤ l' → l' < l → D data l' = false
  | j, 0, _, _, hf, _, _, _ => by omega
  | 0, fuel + 1, i, x, hf, hl, hx, hleft => by
    unfold popDown
    obtain ⟨h1, h2⟩ := hl.leaf
    rw [if_pos h1]
    exact ⟨x, rfl, h1, h2, hx, fun l' a b => hleft l' a (by simpa using b)⟩
  | j + 1, fuel + 1, i, x, hf, hl, hx, hleft => by
    unfold popDown
    have hin := hl.inner
    rw [if_neg (by omega)]
    have htx := ht x hin.1 hin.2
    unfold TreeAt at htx
    rw [hx] at htx
    have hl2 : 2 * x + 1 < data.length := by
      cases h1 : D data (2 * x) with
      | true =>
        have := D_true_lt h1
        rcases hlen with h | h <;> omega
      | false =>
        rw [h1] at htx
        exact D_true_lt (by simpa using htx.symm)
    have hl3 : 2 * x < data.length := by omega
    simp only [rd_D hl3, Option.bind_eq_bind, Option.bind_some]
    cases h1 : D data (2 * x) with
    | true =>
      simp only [if_true]
      rw [rd_D (show 2 * x < data.length by omega), h1]
      simp only [Option.bind_some, check_true]
      refine popDown_spec ht hlen (by omega) hl.left h1 ?_
      intro l a b
      exact hleft l a (by have : 2 * x * 2 ^ j = x * 2 ^ (j + 1) := by ring
                          omega)
    | false =>
      rw [h1] at htx
      have h2 : D data (2 * x + 1) = true := by simpa using htx.symm
      simp only [Bool.false_eq_true, if_false]
      rw [rd_D hl2, h2]
      simp only [Option.bind_some, check_true]
      refine popDown_spec ht hlen (by omega) hl.right h2 ?_
      intro l a b
      by_cases hb : l < x * 2 ^ (j + 1)
      · exact hleft l a hb
      · refine leaves_false hl.left (fun y h3 h4 => ht y (by omega) h4) h1 l ?_ b
        have : 2 * x * 2 ^ j = x * 2 ^ (j + 1) := by ring
        omega

/-- `S` is the set of ids below `n` stored in `q`. -/
structure Rep (q : IDSetMinQueue) (n : Nat) (S : Nat → Bool) : Prop where
  hn : n + 1 < 2147483648
  cnt : q.maxNumberOfIds = n
  pow : ∃ k, k ≤ 31 ∧ q.offset = 2 ^ k
  n_le : n ≤ q.offset
  off_le : q.offset ≤ 2147483648
  len : q.data.length = n + q.offset + n % 2
  sub : ∀ id, S id = true → id < n
  tree : ∀ z, 1 ≤ z → z < q.offset → TreeAt (D q.data) z
  leaf : ∀ i, i < q.offset → D q.data (q.offset + i) = S i
  min_none : q.minId = invalidId → ∀ id, S id = false
  min_some : q.minId ≠ invalidId → S q.minId = true ∧ ∀ id, S id = true → q.minId ≤ id

variable {q : IDSetMinQueue} {n : Nat} {S : Nat → Bool}

theorem Rep.off_pos (h : Rep q n S) : 1 ≤ q.offset := by
  obtain ⟨k, _, hk⟩ := h.pow
  rw [hk]; exact Nat.one_le_two_pow

theorem Rep.even (h : Rep q n S) : q.data.length % 2 = 0 ∨ q.offset = 1 := by
  obtain ⟨k, _, hk⟩ := h.pow
  cases k with
  | zero => right; simpa using hk
  | succ k =>
    left; rw [h.len, hk, pow_succ]; omega

theorem smallestTwoPowerLoop_spec : ∀ {fuel x y k : Nat}, y = 2 ^ k → k + fuel = 33 → fuel ≠ 0 →
    k ≤ 31 → x ≤ 2147483648 → (k ≠ 0 → 2 ^ (k - 1) < x) →
    ∃ k', k' ≤ 31 ∧ smallestTwoPowerLoop fuel x y = some (2 ^ k') ∧ x ≤ 2 ^ k' ∧ 2 ^ k' ≤ 2 ^ 31 ∧ (k' ≠ 0 → 2 ^ (k' - 1) < x)
  | 0, _, _, _, _, _, h, _, _, _ => absurd rfl h
  | fuel + 1, x, y, k, hy, hk, _, hk31, hx, hprev => by
    unfold smallestTwoPowerLoop
    by_cases h : y < x
    · rw [if_pos h]
      have hk30 : k ≤ 30 := by
        by_contra hc
        have : k = 31 := by omega
        subst this
        norm_num at hy; omega
      have hb : 2 ^ (k + 1) ≤ 2 ^ 31 := Nat.pow_le_pow_right (by omega) (by omega)
      have hp : 1 ≤ 2 ^ (k + 1) := Nat.one_le_two_pow
      have e : (y * 2) % u32 = 2 ^ (k + 1) := by
        rw [hy, ← pow_succ]
        apply Nat.mod_eq_of_lt
        norm_num at hb; unfold u32; omega
      simp only [e]
      have c : (2 ^ (k + 1) != 0) = true := by simp
      simp only [c, check_true, Option.bind_eq_bind, Option.bind_some]
      exact smallestTwoPowerLoop_spec rfl (by omega) (by omega) (by omega) hx
        (fun _ => by simpa [← hy] using h)
    · rw [if_neg h]
      have hb : 2 ^ k ≤ 2 ^ 31 := Nat.pow_le_pow_right (by omega) hk31
      exact ⟨k, hk31, by rw [hy], by omega, hb, hprev⟩

theorem rep_new (hn : n + 1 < 2147483648) : ∃ q, new n = some q ∧ Rep q n (fun _ => false) := by
  obtain ⟨k, hk31, e, h1, h2, _⟩ := smallestTwoPowerLoop_spec (fuel := 33) (x := n) (y := 1) (k := 0)
    rfl rfl (by omega) (by omega) (by omega) (by simp)
  norm_num at h2
  have hlen : add32 (add32 n (2 ^ k)) (n % 2) = n + 2 ^ k + n % 2 := by
    unfold add32 u32
    have : (n + 2 ^ k) % 4294967296 = n + 2 ^ k := Nat.mod_eq_of_lt (by omega)
    rw [this]
    apply Nat.mod_eq_of_lt
    omega
  refine ⟨⟨n, invalidId, 2 ^ k, List.replicate (n + 2 ^ k + n % 2) false⟩, ?_, ?_⟩
  · simp only [new, smallestTwoPower, e, Option.bind_eq_bind, Option.bind_some, hlen]
  · have hD : ∀ x, D (List.replicate (n + 2 ^ k + n % 2) false) x = false := by
      intro x
      unfold D
      by_cases hx : x < n + 2 ^ k + n % 2
      · rw [rd_replicate hx]; rfl
      · have : rd (List.replicate (n + 2 ^ k + n % 2) false) x = none := by
          simp only [rd]; apply List.getElem?_eq_none; simp; omega
        rw [this]; rfl
    refine ⟨hn, rfl, ⟨k, hk31, rfl⟩, h1, h2, by simp, by simp, ?_, ?_, by simp, by simp⟩
    · intro z _ _; unfold TreeAt; simp [hD]
    · intro i _; simp [hD]

theorem Rep.add_off (h : Rep q n S) {id : Nat} (hid : id < n) :
    add32 id q.offset = q.offset + id ∧ add32 q.offset id = q.offset + id ∧
      q.offset + id < q.data.length := by
  have := h.hn; have := h.off_le; have := h.n_le
  refine ⟨?_, ?_, by rw [h.len]; omega⟩ <;> (unfold add32 u32; omega)

theorem Rep.contains (h : Rep q n S) {id : Nat} (hid : id < n) : q.contains id = some (S id) := by
  unfold IDSetMinQueue.contains
  have c : decide (id < q.maxNumberOfIds) = true := by simp [h.cnt, hid]
  obtain ⟨_, e, hl⟩ := h.add_off hid
  simp only [c, check_true, Option.bind_eq_bind, Option.bind_some, e]
  rw [rd_D hl, h.leaf id (by have := h.n_le; omega)]

theorem Rep.min_valid (h : Rep q n S) : q.minId ≠ invalidId → q.minId < n := fun hm =>
  h.sub _ (h.min_some hm).1

theorem Rep.empty_iff (h : Rep q n S) : q.empty = true ↔ ∀ id, S id = false := by
  unfold IDSetMinQueue.empty
  rw [beq_iff_eq]
  constructor
  · exact h.min_none
  · intro hall
    by_contra hne
    have := (h.min_some hne).1
    rw [hall] at this; cases this

theorem Rep.push (h : Rep q n S) {id : Nat} (hid : id < n) :
    ∃ q', q.push id = some q' ∧ Rep q' n (fun i => S i || decide (i = id)) := by
  unfold IDSetMinQueue.push
  have c : decide (id < q.maxNumberOfIds) = true := by simp [h.cnt, hid]
  obtain ⟨e, _, hl⟩ := h.add_off hid
  simp only [c, check_true, Option.bind_eq_bind, Option.bind_some, e]
  rw [rd_D hl, h.leaf id (by have := h.n_le; omega)]
  simp only [Option.bind_some]
  generalize hmin : (if q.minId = invalidId then id else min q.minId id) = mn
  have hnn := h.hn
  have hmn : mn ≠ invalidId ∧ (S mn || decide (mn = id)) = true ∧
      ∀ i, (S i || decide (i = id)) = true → mn ≤ i := by
    rw [← hmin]
    by_cases hi : q.minId = invalidId
    · rw [if_pos hi]
      refine ⟨by unfold invalidId; omega, by simp, ?_⟩
      intro i hii
      have := h.min_none hi i
      simp [this] at hii; omega
    · rw [if_neg hi]
      have h1 := h.min_valid hi
      have h2 := h.min_some hi
      refine ⟨by unfold invalidId; omega, ?_, ?_⟩
      · rcases Nat.le_total q.minId id with hle | hle
        · rw [Nat.min_eq_left hle, h2.1]; rfl
        · rw [Nat.min_eq_right hle]; simp
      · intro i hii
        simp only [Bool.or_eq_true, decide_eq_true_eq] at hii
        rcases hii with hii | hii
        · have := h2.2 i hii; omega
        · omega
  have hsub : ∀ i, (S i || decide (i = id)) = true → i < n := by
    intro i hi
    simp only [Bool.or_eq_true, decide_eq_true_eq] at hi
    rcases hi with hi | hi
    · exact h.sub i hi
    · omega
  cases hS : S id with
  | true =>
    simp only [if_true]
    refine ⟨_, rfl, h.hn, h.cnt, h.pow, h.n_le, h.off_le, h.len, hsub, h.tree, ?_, ?_, fun _ => hmn.2⟩
    · intro i hi
      simp only
      rw [h.leaf i hi]
      by_cases hii : i = id
      · subst hii; simp [hS]
      · simp [hii]
    · intro hh; exact absurd hh hmn.1
  | false =>
    simp only [Bool.false_eq_true, if_false]
    have hop := h.off_pos
    obtain ⟨data', e', h1, h2, h3⟩ := pushLoop_spec (off := q.offset) (fuel := q.offset + id + 1)
      (data := q.data) (x := q.offset + id) (by omega) (by omega) hl
      (by rw [h.leaf id (by have := h.n_le; omega), hS]) (fun z a b _ => h.tree z a b)
      (fun hh => by omega) (by have := h.n_le; omega) (by rw [h.len]; omega)
    rw [e']
    refine ⟨_, rfl, h.hn, h.cnt, h.pow, h.n_le, h.off_le, by simp only; rw [h1, h.len], hsub, h2, ?_,
      ?_, fun _ => hmn.2⟩
    · intro i hi
      simp only
      rw [h3 _ (by omega), h.leaf i hi]
      congr 1
      simp
    · intro hh; exact absurd hh hmn.1

theorem Rep.pop (h : Rep q n S) (hne : ∃ id, S id = true) :
    ∃ q' id, q.pop = some (q', id) ∧ S id = true ∧ (∀ i, S i = true → id ≤ i) ∧
      Rep q' n (fun i => S i && decide (i ≠ id)) := by
  have hmi : q.minId ≠ invalidId := by
    intro hh
    obtain ⟨id, hid⟩ := hne
    rw [h.min_none hh id] at hid; cases hid
  have hlt := h.min_valid hmi
  obtain ⟨hS, hmin⟩ := h.min_some hmi
  obtain ⟨e, _, hl⟩ := h.add_off hlt
  obtain ⟨k, hk31, hk⟩ := h.pow
  have hnle := h.n_le
  have hop := h.off_pos
  unfold IDSetMinQueue.pop
  have c : (!q.empty) = true := by
    unfold IDSetMinQueue.empty; simp [hmi]
  simp only [c, check_true, Option.bind_eq_bind, Option.bind_some, e]
  have hlvl : Lvl q.offset k 0 (q.offset + q.minId) := by
    rw [hk]
    exact Lvl.of_leaf (by omega) (by omega)
  obtain ⟨data', r, e', h1, h2, h3, h4⟩ := popUp_spec (off := q.offset)
    (fuel := q.offset + q.minId + 1) (data := q.data) (by omega) hlvl
    (by rw [h.leaf _ (by omega)]; exact hS) (fun z a b _ => h.tree z a b) (fun hh => by omega)
    (by
      intro l a b hne'
      have hl2 : l < q.offset + q.minId := by simp at b; omega
      have := h.leaf (l - q.offset) (by omega)
      rw [show q.offset + (l - q.offset) = l by omega] at this
      rw [this]
      by_contra hc
      have := hmin (l - q.offset) (by simpa using hc)
      omega)
    (by rw [h.len]; omega) h.even
  rw [e']
  simp only [Option.bind_some]
  have hleaf : ∀ i, i < q.offset → D data' (q.offset + i) = (S i && decide (i ≠ q.minId)) := by
    intro i hi
    rw [h3 _ (by omega), h.leaf i hi]
    congr 1
    simp
  have hsub : ∀ i, (S i && decide (i ≠ q.minId)) = true → i < n := by
    intro i hi
    simp only [Bool.and_eq_true] at hi
    exact h.sub i hi.1
  have hlen' : data'.length = n + q.offset + n % 2 := by rw [h1, h.len]
  have hev' : data'.length % 2 = 0 ∨ q.offset = 1 := by rw [h1]; exact h.even
  cases r with
  | none =>
    simp only
    refine ⟨_, q.minId, rfl, hS, hmin, h.hn, h.cnt, ⟨k, hk31, hk⟩, hnle, h.off_le, hlen', hsub, h2,
      hleaf, ?_, ?_⟩
    · intro _ i
      by_cases hi : i < q.offset
      · have := h4 (q.offset + i) (by omega) (by omega)
        rw [hleaf i hi] at this; exact this
      · by_contra hc
        have := hsub i (by simpa using hc)
        omega
    · intro hh; exact absurd rfl hh
  | some y =>
    obtain ⟨hy, i', j', hlv, hDy, hleft⟩ := h4
    have cy : decide (y % 2 = 0) = true := by simp [hy]
    simp only [cy, check_true, Option.bind_some]
    rw [rd_D (D_true_lt hDy), hDy]
    simp only [Option.bind_some, check_true]
    have hj : j' < q.offset + 1 := by
      have h5 : 2 ^ j' ≤ q.offset := by
        rw [← hlv.off]
        exact Nat.le_mul_of_pos_left _ (Nat.two_pow_pos _)
      have h6 : j' < 2 ^ j' := Nat.lt_two_pow_self
      omega
    obtain ⟨l, e2, l1, l2, l3, l4⟩ := popDown_spec h2 hev' hj hlv hDy hleft
    rw [e2]
    simp only [Option.bind_some]
    have hle := hleaf (l - q.offset) (by omega)
    rw [show q.offset + (l - q.offset) = l by omega, l3] at hle
    have hln := hsub _ hle.symm
    have hnn := h.hn
    refine ⟨_, q.minId, rfl, hS, hmin, h.hn, h.cnt, ⟨k, hk31, hk⟩, hnle, h.off_le, hlen', hsub, h2,
      hleaf, ?_, ?_⟩
    · intro hh
      simp only at hh
      unfold invalidId at hh; omega
    · intro _
      refine ⟨hle.symm, ?_⟩
      intro i hi
      simp only
      by_contra hc
      have hin := hsub i hi
      have := l4 (q.offset + i) (by omega) (by omega)
      rw [hleaf i (by omega), hi] at this
      cases this

theorem clearLoop_spec : ∀ {fuel : Nat} {q : IDSetMinQueue} {S : Nat → Bool}, Rep q n S →
    ((List.range n).filter fun i => S i).length < fuel →
    ∃ q', clearLoop fuel q = some q' ∧ Rep q' n (fun _ => false)
  | 0, _, _, _, hf => by omega
  | fuel + 1, q, S, h, hf => by
    unfold clearLoop
    by_cases he : q.empty = true
    · rw [he]
      simp only [Bool.not_true, Bool.false_eq_true, if_false]
      refine ⟨q, rfl, ?_⟩
      have : S = fun _ => false := funext (h.empty_iff.1 he)
      rw [← this]; exact h
    · have hb : (!q.empty) = true := by simpa using he
      rw [if_pos hb]
      have hne : ∃ id, S id = true := by
        by_contra hc
        exact he (h.empty_iff.2 (fun id => by
          by_contra hh
          exact hc ⟨id, by simpa using hh⟩))
      obtain ⟨q', id, e, h1, _, h3⟩ := h.pop hne
      rw [e]
      simp only [Option.bind_eq_bind, Option.bind_some]
      refine clearLoop_spec h3 ?_
      have hid := h.sub id h1
      have hlt : ((List.range n).filter fun i => S i && decide (i ≠ id)).length <
          ((List.range n).filter fun i => S i).length := by
        have e1 : ((List.range n).filter fun i => S i && decide (i ≠ id)) =
            ((List.range n).filter fun i => S i).filter fun i => decide (i ≠ id) := by
          rw [List.filter_filter]
          congr 1; funext i; exact Bool.and_comm _ _
        rw [e1]
        apply List.length_filter_lt_length_iff_exists.2
        exact ⟨id, by simp [hid, h1], by simp⟩
      omega

theorem Rep.clear (h : Rep q n S) : ∃ q', q.clear = some q' ∧ Rep q' n (fun _ => false) := by
  unfold IDSetMinQueue.clear
  refine clearLoop_spec h ?_
  have := List.length_filter_le (fun i => S i) (List.range n)
  rw [h.cnt]
  simp at this
  omega

end IDSetMinQueue
end RK
