import Verif.Model.IdMapper
import Verif.Proof.BitVector
/-! # Proofs about rank and select -/
namespace RK
open BitVector

/-- number of `true` below `x` -/
def rk (f : Nat → Bool) (x : Nat) : Nat := (List.range x).countP f

/-- `x` is the index of the `true` with number `n` -/
def Sel (f : Nat → Bool) (n x : Nat) : Prop := f x = true ∧ rk f x = n

theorem rk_succ (f : Nat → Bool) (x : Nat) : rk f (x + 1) = rk f x + (if f x then 1 else 0) := by
  unfold rk
  rw [List.range_succ, List.countP_append]
  cases h : f x <;> simp [h]

theorem rk_add (f : Nat → Bool) (a b : Nat) : rk f (a + b) = rk f a + rk (fun i => f (a + i)) b :=
  countP_range_add f a b

theorem rk_mono (f : Nat → Bool) {a b : Nat} (h : a ≤ b) : rk f a ≤ rk f b := by
  obtain ⟨k, rfl⟩ := Nat.exists_eq_add_of_le h
  rw [rk_add]; omega

theorem rk_le (f : Nat → Bool) (a : Nat) : rk f a ≤ a := by
  have := List.countP_le_length (p := f) (l := List.range a)
  simpa [rk] using this

theorem rk_congr {f g : Nat → Bool} {a : Nat} (h : ∀ i, i < a → f i = g i) : rk f a = rk g a := by
  apply List.countP_congr
  intro x hx
  simp only [List.mem_range] at hx
  rw [h x hx]

theorem rk_lt_of_set {f : Nat → Bool} {a b : Nat} (h : f a = true) (hab : a < b) : rk f a < rk f b := by
  have := rk_mono f (show a + 1 ≤ b by omega)
  rw [rk_succ, if_pos h] at this
  omega

theorem Sel.unique {f : Nat → Bool} {n x y : Nat} (hx : Sel f n x) (hy : Sel f n y) : x = y := by
  rcases Nat.lt_trichotomy x y with h | h | h
  · have := rk_lt_of_set hx.1 h; have := hx.2; have := hy.2; omega
  · exact h
  · have := rk_lt_of_set hy.1 h; have := hx.2; have := hy.2; omega

theorem sel_exists {f : Nat → Bool} {n k : Nat} (h : n < rk f k) : ∃ x, x < k ∧ Sel f n x := by
  induction k with
  | zero => simp [rk] at h
  | succ k ih =>
    by_cases h' : n < rk f k
    · obtain ⟨x, hx, hs⟩ := ih h'; exact ⟨x, by omega, hs⟩
    · rw [rk_succ] at h
      by_cases hf : f k = true
      · rw [if_pos hf] at h
        exact ⟨k, by omega, hf, by omega⟩
      · rw [if_neg hf] at h; omega

theorem Sel.shift {f : Nat → Bool} {n k x : Nat} (h : Sel (fun i => f (k + i)) n x) :
    Sel f (rk f k + n) (k + x) := ⟨h.1, by rw [rk_add, h.2]⟩

theorem popcount_and_mask {w : Word} {k : Nat} (hk : k < 64) :
    popcount (w &&& ((1#64 <<< k) - 1#64)) = rk w.getLsbD k := by
  have h : popcount (w &&& ((1#64 <<< k) - 1#64)) =
      rk (fun b => w.getLsbD b && decide (b < k)) 64 := by
    unfold popcount
    apply rk_congr
    intro b hb
    rw [BitVec.getLsbD_and, mask_getLsbD hk hb]
  rw [h]
  obtain ⟨d, hd⟩ := Nat.exists_eq_add_of_le (Nat.le_of_lt hk)
  have h64 : rk (fun b => w.getLsbD b && decide (b < k)) 64 =
      rk (fun b => w.getLsbD b && decide (b < k)) (k + d) := by rw [← hd]
  rw [h64, rk_add]
  rw [rk_congr (g := w.getLsbD) (by intro i hi; simp [hi])]
  rw [rk_congr (a := d) (g := fun _ => false) (by intro i hi; simp)]
  simp [rk]

theorem halve_spec {k : Nat} (hk : k < 64) (w : Word) (n r : Nat) (h : n < rk w.getLsbD (k + k)) :
    ∃ w' n' r', halve k (w, n, r) = (w', n', r') ∧ n' < rk w'.getLsbD k ∧
      ∀ x, Sel w'.getLsbD n' x → ∃ y, r + y = r' + x ∧ Sel w.getLsbD n y := by
  unfold halve
  simp only [popcount_and_mask hk]
  split_ifs with hc
  · refine ⟨_, _, _, rfl, ?_, ?_⟩
    · rw [rk_add] at h
      have : rk (w >>> k).getLsbD k = rk (fun i => w.getLsbD (k + i)) k := by
        apply rk_congr; intro i _; rw [BitVec.getLsbD_ushiftRight]
      omega
    · intro x hx
      refine ⟨k + x, by omega, ?_⟩
      have hx' : Sel (fun i => w.getLsbD (k + i)) (n - rk w.getLsbD k) x := by
        refine ⟨by have := hx.1; rw [BitVec.getLsbD_ushiftRight] at this; exact this, ?_⟩
        rw [← hx.2]
        apply rk_congr; intro i _; rw [BitVec.getLsbD_ushiftRight]
      have := hx'.shift
      rwa [show rk w.getLsbD k + (n - rk w.getLsbD k) = n by omega] at this
  · exact ⟨_, _, _, rfl, by omega, fun x hx => ⟨x, rfl, hx⟩⟩

/-- `w & (w-1)` resets the lowest one bit. -/
theorem and_sub_one {w : Word} {t : Nat} (ht : Sel w.getLsbD 0 t) (i : Nat) :
    (w &&& (w - 1#64)).getLsbD i = (w.getLsbD i && decide (i ≠ t)) := by
  have ht64 : t < 64 := by
    by_contra hc
    have := ht.1
    rw [BitVec.getLsbD_of_ge _ _ (by omega)] at this
    cases this
  have hlow : ∀ j, j < t → w.toNat.testBit j = false := by
    intro j hj
    by_contra hc
    have h1 : w.getLsbD j = true := by simpa [BitVec.getLsbD] using hc
    have := rk_lt_of_set h1 hj
    rw [ht.2] at this; omega
  have hset : w.toNat.testBit t = true := by simpa [BitVec.getLsbD] using ht.1
  have hmod : w.toNat % 2 ^ (t + 1) = 2 ^ t := by
    apply Nat.eq_of_testBit_eq
    intro j
    rw [Nat.testBit_mod_two_pow, Nat.testBit_two_pow]
    rcases Nat.lt_trichotomy j t with h | h | h
    · rw [hlow j h]; simp; omega
    · subst h; simp [hset]
    · have : ¬ (j < t + 1) := by omega
      simp [this]; omega
  have hw : w.toNat = 2 ^ (t + 1) * (w.toNat / 2 ^ (t + 1)) + 2 ^ t := by
    have := Nat.div_add_mod w.toNat (2 ^ (t + 1)); rw [hmod] at this; exact this.symm
  have hpos : 0 < 2 ^ t := Nat.two_pow_pos t
  have hp1 : 2 ^ t < 2 ^ (t + 1) := Nat.pow_lt_pow_right (by omega) (by omega)
  have hsub : (w - 1#64).toNat = 2 ^ (t + 1) * (w.toNat / 2 ^ (t + 1)) + (2 ^ t - 1) := by
    rw [BitVec.toNat_sub]
    have := w.isLt
    simp only [BitVec.toNat_ofNat]
    generalize 2 ^ (t + 1) * (w.toNat / 2 ^ (t + 1)) = q at hw ⊢
    norm_num at this ⊢
    omega
  rw [BitVec.getLsbD_and]
  simp only [BitVec.getLsbD]
  rw [hsub]
  generalize w.toNat / 2 ^ (t + 1) = q at hw
  rw [hw, Nat.testBit_two_pow_mul_add _ hp1, Nat.testBit_two_pow_mul_add _ (by omega)]
  by_cases hi : i < t + 1
  · rw [if_pos hi, if_pos hi, Nat.testBit_two_pow, Nat.testBit_two_pow_sub_one]
    by_cases h2 : i = t
    · subst h2; simp
    · have h3 : t ≠ i := fun h => h2 h.symm
      simp [h3]
  · rw [if_neg hi, if_neg hi]
    have : i ≠ t := by omega
    simp [this]

theorem rk_and_sub_one {w : Word} {t : Nat} (ht : Sel w.getLsbD 0 t) (x : Nat) (hx : t < x) :
    rk w.getLsbD x = rk (w &&& (w - 1#64)).getLsbD x + 1 := by
  obtain ⟨k, rfl⟩ := Nat.exists_eq_add_of_le (show t + 1 ≤ x by omega)
  rw [rk_add _ (t + 1) k, rk_add _ (t + 1) k, rk_succ _ t, rk_succ _ t, if_pos ht.1, ht.2]
  have h1 : rk (w &&& (w - 1#64)).getLsbD t = 0 := by
    have : rk (w &&& (w - 1#64)).getLsbD t = rk w.getLsbD t := by
      apply rk_congr; intro i hi
      rw [and_sub_one ht]
      have : i ≠ t := by omega
      simp [this]
    rw [this, ht.2]
  have h2 : (w &&& (w - 1#64)).getLsbD t = false := by rw [and_sub_one ht]; simp
  have h3 : rk (fun i => (w &&& (w - 1#64)).getLsbD (t + 1 + i)) k =
      rk (fun i => w.getLsbD (t + 1 + i)) k := by
    apply rk_congr; intro i _
    rw [and_sub_one ht]
    have : t + 1 + i ≠ t := by omega
    simp [this]
  rw [h1, h2, h3]; simp; omega

theorem clearLow_spec : ∀ {n : Nat} {w : Word} {k : Nat}, n < rk w.getLsbD k →
    0 < rk (clearLow n w).getLsbD k ∧ ∀ x, Sel (clearLow n w).getLsbD 0 x → Sel w.getLsbD n x
  | 0, w, k, h => ⟨h, fun _ h => h⟩
  | n + 1, w, k, h => by
    obtain ⟨t, htk, ht⟩ := sel_exists (f := w.getLsbD) (n := 0) (k := k) (by omega)
    have h1 := rk_and_sub_one ht k htk
    obtain ⟨h2, h3⟩ := clearLow_spec (n := n) (w := w &&& (w - 1#64)) (k := k) (by omega)
    refine ⟨h2, ?_⟩
    intro x hx
    have h4 := h3 x hx
    have h5 := h4.1
    rw [and_sub_one ht] at h5
    simp only [Bool.and_eq_true, decide_eq_true_eq] at h5
    have htx : t < x := by
      by_contra hc
      have : rk w.getLsbD t = 0 := ht.2
      have := rk_lt_of_set h5.1 (show x < t by omega)
      omega
    refine ⟨h5.1, ?_⟩
    rw [rk_and_sub_one ht x htx, h4.2]

theorem ffsll_spec {w : Word} {k : Nat} (hk : k ≤ 64) (h : 0 < rk w.getLsbD k) :
    ∃ x, ffsll w = x + 1 ∧ x < k ∧ Sel w.getLsbD 0 x := by
  obtain ⟨x, hx, hs⟩ := sel_exists h
  refine ⟨x, ?_, hx, hs⟩
  unfold ffsll
  have : (List.range 64).find? (fun b => w.getLsbD b) = some x := by
    rw [List.find?_range_eq_some]
    refine ⟨hs.1, by simp; omega, ?_⟩
    intro j hj
    by_contra hc
    have := rk_lt_of_set (f := w.getLsbD) (a := j) (by simpa using hc) hj
    rw [hs.2] at this; omega
  rw [this]

theorem select64_spec {w : Word} {n : Nat} (h : n < popcount w) :
    ∃ x, select64 w n = some x ∧ x < 64 ∧ Sel w.getLsbD n x := by
  have h0 : n < rk w.getLsbD 64 := h
  have hle := rk_le w.getLsbD 64
  obtain ⟨w1, n1, r1, e1, h1, s1⟩ := halve_spec (k := 32) (by omega) w n 0 h0
  obtain ⟨w2, n2, r2, e2, h2, s2⟩ := halve_spec (k := 16) (by omega) w1 n1 r1 h1
  obtain ⟨w3, n3, r3, e3, h3, s3⟩ := halve_spec (k := 8) (by omega) w2 n2 r2 h2
  obtain ⟨hc, sc⟩ := clearLow_spec h3
  obtain ⟨x, ef, _, hx⟩ := ffsll_spec (by omega) hc
  have l1 := rk_le w1.getLsbD 32
  have l2 := rk_le w2.getLsbD 16
  have l3 := rk_le w3.getLsbD 8
  obtain ⟨y3, q3, t3⟩ := s3 x (sc x hx)
  obtain ⟨y2, q2, t2⟩ := s2 y3 t3
  obtain ⟨y1, q1, t1⟩ := s1 y2 t2
  refine ⟨y1, ?_, ?_, t1⟩
  · unfold select64
    simp only [e1, e2, e3, ef]
    rw [show decide (n < popcount w) = true by simpa using h, show decide (n < 64) = true by simp; omega,
      show decide (n1 < 32) = true by simp; omega, show decide (n2 < 16) = true by simp; omega,
      show decide (n3 < 8) = true by simp; omega]
    simp
    omega
  · by_contra hc'
    have := t1.1
    rw [BitVec.getLsbD_of_ge _ _ (by omega)] at this
    cases this

/-! ### blocks of 512 bits -/

theorem popcount_wordAt (ws : List Word) (p : Nat) :
    popcount (wordAt ws p) = rk (fun b => bit ws (64 * p + b)) 64 := popcount_word

theorem select512Loop_spec {ws : List Word} : ∀ {fuel block i n r : Nat},
    fuel + i = 9 → i ≤ 8 → block + (8 - i) ≤ ws.length →
    n < rk (fun b => bit ws (64 * block + b)) (64 * (8 - i)) →
    ∃ x, select512Loop ws fuel block i n r = some (r + x) ∧ Sel (fun b => bit ws (64 * block + b)) n x
  | 0, block, i, n, r, h1, h2, _, _ => by omega
  | fuel + 1, block, i, n, r, h1, h2, hl, hn => by
    have hi : i < 8 := by
      by_contra hc
      rw [show 64 * (8 - i) = 0 by omega] at hn
      simp [rk] at hn
    unfold select512Loop
    rw [rd_wordAt (by omega)]
    simp only [Option.bind_eq_bind, Option.bind_some]
    have hpw := popcount_wordAt ws block
    by_cases hc : popcount (wordAt ws block) ≤ n
    · rw [if_pos hc]
      have hdec : decide (i < 8) = true := by simpa using hi
      simp only [hdec, check_true, Option.bind_some]
      have hsplit : rk (fun b => bit ws (64 * block + b)) (64 * (8 - i)) =
          popcount (wordAt ws block) + rk (fun b => bit ws (64 * (block + 1) + b)) (64 * (8 - (i + 1))) := by
        rw [show 64 * (8 - i) = 64 + 64 * (8 - (i + 1)) by omega, rk_add, hpw]
        congr 1
        apply rk_congr; intro j _
        rw [show 64 * block + (64 + j) = 64 * (block + 1) + j by omega]
      obtain ⟨x, e, hs⟩ := select512Loop_spec (ws := ws) (fuel := fuel) (block := block + 1) (i := i + 1)
        (n := n - popcount (wordAt ws block)) (r := r + 64) (by omega) (by omega) (by omega) (by omega)
      refine ⟨64 + x, by rw [e, Nat.add_assoc], ?_⟩
      have hs' : Sel (fun b => (fun c => bit ws (64 * block + c)) (64 + b))
          (n - popcount (wordAt ws block)) x := by
        have he : (fun b => (fun c => bit ws (64 * block + c)) (64 + b)) =
            fun b => bit ws (64 * (block + 1) + b) := by
          funext b; show bit ws (64 * block + (64 + b)) = _
          rw [show 64 * block + (64 + b) = 64 * (block + 1) + b by omega]
        rw [he]; exact hs
      have := Sel.shift (f := fun c => bit ws (64 * block + c)) (k := 64) hs'
      rw [← hpw, show popcount (wordAt ws block) + (n - popcount (wordAt ws block)) = n by omega] at this
      exact this
    · rw [if_neg hc]
      obtain ⟨x, e, hx, hs⟩ := select64_spec (w := wordAt ws block) (n := n) (by omega)
      simp only [e, Option.bind_some]
      refine ⟨x, rfl, ?_, ?_⟩
      · show bit ws (64 * block + x) = true
        rw [bit_word hx]; exact hs.1
      · rw [← hs.2]
        apply rk_congr; intro j hj
        rw [bit_word (by omega)]

theorem select512_spec {ws : List Word} {o n : Nat} (hl : 8 * o + 8 ≤ ws.length)
    (hn : n < rk (fun b => bit ws (512 * o + b)) 512) :
    ∃ x, select512 ws (8 * o) n = some x ∧ Sel (fun b => bit ws (512 * o + b)) n x := by
  have he : ∀ b, 64 * (8 * o) + b = 512 * o + b := by intro b; omega
  obtain ⟨x, e, hs⟩ := select512Loop_spec (ws := ws) (fuel := 9) (block := 8 * o) (i := 0) (n := n) (r := 0)
    rfl (by omega) (by omega) (by simpa [he] using hn)
  refine ⟨x, by unfold select512; rw [e, Nat.zero_add], ?_⟩
  simpa [he] using hs

/-! ### galloping search -/

/-- `rank` holds the rank of the start of every block. -/
def RankTable (f : Nat → Bool) (rank : List Nat) (blocks : Nat) : Prop :=
  rank.length = blocks + 1 ∧ ∀ j, j ≤ blocks → rd rank j = some (rk f (512 * j))

theorem gallop_spec {f : Nat → Bool} {rank : List Nat} {o count n blocks : Nat}
    (ht : RankTable f rank blocks) (hb : o + count = blocks) : ∀ {fuel p : Nat},
    p < 2 ^ 64 → 2 ^ 64 < p * 2 ^ fuel → count < 2 ^ 63 →
    2 ≤ p → (p / 2 < count ∧ rk f (512 * (o + p / 2)) ≤ n) → p % 2 = 0 →
    ∃ step, gallop rank o count n fuel p = some step ∧ 1 ≤ step / 2 ∧ step / 2 < count ∧
      rk f (512 * (o + step / 2)) ≤ n
  | 0, p, h1, h2, h3, _, _, _ => by simp at h2; omega
  | fuel + 1, p, h1, h2, h3, hp, hq, hev => by
    unfold gallop
    by_cases hc : p < count
    · rw [if_pos hc, ht.2 _ (by omega)]
      simp only [Option.bind_eq_bind, Option.bind_some]
      by_cases hr : rk f (512 * (o + p)) ≤ n
      · rw [if_pos hr]
        exact gallop_spec ht hb (by omega) (by rw [Nat.mul_assoc, ← Nat.pow_succ']; exact h2) h3 (by omega)
          (by rw [Nat.mul_div_cancel _ (by omega)]; exact ⟨hc, hr⟩) (by omega)
      · rw [if_neg hr]; exact ⟨p, rfl, by omega, hq.1, hq.2⟩
    · rw [if_neg hc]; exact ⟨p, rfl, by omega, hq.1, hq.2⟩

theorem bitSelectLoop_spec {f : Nat → Bool} {rank : List Nat} {n blocks : Nat}
    (ht : RankTable f rank blocks) (hsmall : blocks < 2 ^ 63) (hn : n < rk f (512 * blocks)) :
    ∀ {fuel o count : Nat}, count < fuel → o + count = blocks → rk f (512 * o) ≤ n →
    ∃ o', bitSelectLoop rank n fuel o count = some o' ∧ o ≤ o' ∧ o' < blocks ∧
      rk f (512 * o') ≤ n ∧ n < rk f (512 * (o' + 1))
  | 0, o, count, h1, _, _ => by omega
  | fuel + 1, o, count, h1, h2, h3 => by
    have ho : o < blocks := by
      by_contra hc
      rw [show o = blocks by omega] at h3; omega
    unfold bitSelectLoop
    rw [ht.2 _ (by omega)]
    simp only [Option.bind_eq_bind, Option.bind_some]
    by_cases hc : n < rk f (512 * (o + 1))
    · rw [if_pos hc]; exact ⟨o, rfl, by omega, ho, h3, hc⟩
    · rw [if_neg hc]
      have hc1 : 1 < count := by
        by_contra hc1
        rw [show blocks = o + 1 by omega] at hn; omega
      have hg : ∃ step, gallop rank o count n 65 1 = some step ∧ 1 ≤ step / 2 ∧ step / 2 < count ∧
          rk f (512 * (o + step / 2)) ≤ n := by
        have : gallop rank o count n 65 1 = gallop rank o count n 64 2 := by
          conv_lhs => unfold gallop
          rw [if_pos hc1, ht.2 _ (by omega)]
          simp only [Option.bind_eq_bind, Option.bind_some]
          rw [if_pos (by omega)]
        rw [this]
        exact gallop_spec ht h2 (by omega) (by omega) (by omega) (by omega) ⟨by omega, by rw [show 2 / 2 = 1 from rfl]; omega⟩ (by omega)
      obtain ⟨step, e, h4, h5, h6⟩ := hg
      simp only [e, Option.bind_some]
      obtain ⟨o', e', h7, h8, h9⟩ := bitSelectLoop_spec ht hsmall hn (fuel := fuel) (o := o + step / 2)
        (count := count - step / 2) (by omega) (by omega) h6
      exact ⟨o', e', by omega, h8, h9⟩

theorem bitSelect_spec {ws : List Word} {rank : List Nat} {n blocks o : Nat}
    (ht : RankTable (bit ws) rank blocks) (hl : ws.length = 8 * blocks) (hsmall : blocks < 2 ^ 63)
    (hn : n < rk (bit ws) (512 * blocks)) (ho : o < blocks) (hr : rk (bit ws) (512 * o) ≤ n) :
    ∃ x, bitSelect (blocks - o) rank ws o n = some x ∧ Sel (bit ws) n (x + 512 * o) := by
  unfold bitSelect
  have h0 : decide (blocks - o ≠ 0) = true := by simp; omega
  obtain ⟨o', e, h1, h2, h3, h4⟩ := bitSelectLoop_spec ht hsmall hn (fuel := blocks - o + 1) (o := o)
    (count := blocks - o) (by omega) (by omega) hr
  rw [Nat.mul_succ, rk_add] at h4
  obtain ⟨x, ex, hx⟩ := select512_spec (ws := ws) (o := o') (n := n - rk (bit ws) (512 * o')) (by omega) (by omega)
  have h5 : decide (rk (bit ws) (512 * o') ≤ n) = true := by simpa using h3
  simp only [h0, check_true, Option.bind_eq_bind, Option.bind_some, e, ht.2 o' (by omega), h5, ex]
  refine ⟨_, rfl, ?_⟩
  have := hx.shift
  rw [show rk (bit ws) (512 * o') + (n - rk (bit ws) (512 * o')) = n by omega] at this
  rw [show x + (o' - o) * 512 + 512 * o = 512 * o' + x by omega]
  exact this

/-! ### LocalIDMapper -/

variable {v : BitVector} {B : List Bool}

namespace LocalIDMapper

theorem rk_words {ws : List Word} {i : Nat} : rk (bit ws) (64 * (i + 1)) =
    rk (bit ws) (64 * i) + popcount (wordAt ws i) := by
  rw [Nat.mul_succ, rk_add, popcount_wordAt]

theorem sumWords {ws : List Word} {lo hi s : Nat} (hle : lo ≤ hi) (hl : hi ≤ ws.length)
    (hs : s = rk (bit ws) (64 * lo)) :
    forRange lo hi s (fun s i => (rd ws i).map fun w => s + popcount w) = some (rk (bit ws) (64 * hi)) := by
  obtain ⟨s', e, h⟩ := forRange_inv (lo := lo) (hi := hi) (s := s)
    (f := fun s i => (rd ws i).map fun w => s + popcount w)
    (fun i s => s = rk (bit ws) (64 * i)) hle hs (by
      rintro i s _ hi rfl
      exact ⟨_, by rw [rd_wordAt (by omega)]; rfl, rk_words.symm⟩)
  rw [e, h]

/-- A correctly built mapper. -/
structure Ok (m : LocalIDMapper) (B : List Bool) : Prop where
  bound : B.length + 511 < u64
  count : m.bitCount = B.length
  len : m.bits.length = 8 * ((B.length + 511) / 512)
  bits : ∀ x, bit m.bits x = at' B x
  table : RankTable (bit m.bits) m.rank ((B.length + 511) / 512)

theorem new_spec (h : v.Rep B) : ∃ m, new v = some m ∧ m.Ok B := by
  unfold LocalIDMapper.new
  have hlen := h.shape.len_eq
  have hsz := h.size
  rw [hsz] at hlen
  have hbd := h.shape.bound
  rw [hsz] at hbd
  generalize hb : (B.length + 511) / 512 = blocks at hlen
  obtain ⟨⟨rank, s⟩, e, ⟨h1, h2⟩, h3⟩ := forRange_inv (lo := 0) (hi := blocks)
    (s := (List.replicate (blocks + 1) 0, 0))
    (f := fun (st : List Nat × Nat) j => (wr st.1 j st.2).bind fun rank =>
      (forRange (8 * j) (8 * j + 8) st.2 fun s i => (rd v.words i).map fun w => s + popcount w).bind fun s =>
      some (rank, s))
    (fun j st => (st.1.length = blocks + 1 ∧ st.2 = rk (bit v.words) (512 * j)) ∧
      ∀ i, i < j → rd st.1 i = some (rk (bit v.words) (512 * i)))
    (by omega) ⟨⟨by simp, by simp [rk]⟩, by intro i hi; omega⟩ (by
      rintro j ⟨rank, s⟩ _ hj ⟨⟨h1, h2⟩, h3⟩
      simp only at h1 h2 h3
      have hw : wr rank j s = some (rank.set j s) := wr_lt (by omega)
      have hsum := sumWords (ws := v.words) (lo := 8 * j) (hi := 8 * j + 8) (s := s) (by omega) (by omega)
        (by rw [h2, show 64 * (8 * j) = 512 * j by omega])
      refine ⟨(rank.set j s, rk (bit v.words) (64 * (8 * j + 8))),
        by simp only [hw, hsum, Option.bind_some], ⟨by simpa using h1,
        by dsimp only; rw [show 64 * (8 * j + 8) = 512 * (j + 1) by omega]⟩, ?_⟩
      intro i hi
      show rd (rank.set j s) i = _
      rw [rd_set (by omega)]
      by_cases hij : i = j
      · subst hij; rw [if_pos rfl, h2]
      · have := h3 i (by omega)
        simp [hij, this])
  simp only at h1 h2 h3
  have hw : wr rank blocks s = some (rank.set blocks s) := wr_lt (by omega)
  refine ⟨⟨v.words, v.size, rank.set blocks s⟩, ?_, ?_⟩
  · simp only [hsz, hb]
    have key : ∀ (X : Option (List Nat × Nat)), X = some (rank, s) →
        (X.bind fun p => (wr p.1 blocks p.2).bind fun r => some (⟨v.words, v.size, r⟩ : LocalIDMapper)) =
        some ⟨v.words, v.size, rank.set blocks s⟩ := by
      rintro X rfl; simp [hw]
    have := key _ e
    rw [hsz] at this
    exact this
  · refine ⟨hbd, hsz, by rw [hb]; exact hlen, h.bits, ?_⟩
    rw [hb]
    refine ⟨by simpa using h1, ?_⟩
    intro j hj
    show rd (rank.set blocks s) j = _
    rw [rd_set (by omega)]
    by_cases hij : j = blocks
    · subst hij; rw [if_pos rfl, h2]
    · have := h3 j (by omega)
      simp [hij, this]

variable {m : LocalIDMapper}

theorem Ok.rk_eq (h : m.Ok B) (x : Nat) : rk (bit m.bits) x = rk (at' B) x :=
  rk_congr fun i _ => h.bits i

theorem Ok.total (h : m.Ok B) {n : Nat} (hn : B.length ≤ n) : rk (bit m.bits) n = B.count true := by
  rw [h.rk_eq]; exact countP_at B n hn

theorem Ok.localIdCount (h : m.Ok B) : m.localIdCount = B.count true := by
  unfold LocalIDMapper.localIdCount
  have h1 := h.table.2 _ (Nat.le_refl _)
  have h2 : m.rank.getLast? = some (B.count true) := by
    rw [List.getLast?_eq_getElem?, h.table.1]
    simp only [rd] at h1
    rw [Nat.add_sub_cancel, h1, h.total (by omega)]
  rw [h2]

theorem Ok.word_lt (h : m.Ok B) {x : Nat} (hx : x < B.length) : x / 64 < m.bits.length := by
  have := h.len; omega

theorem Ok.bit_at (h : m.Ok B) (g : Nat) :
    ((wordAt m.bits (g / 64) &&& (1#64 <<< (g % 64))) != 0) = at' B g := by
  rw [and_shift_ne (by omega), ← h.bits]; rfl

theorem Ok.isGlobalIdMapped (h : m.Ok B) {g : Nat} (hg : g < B.length) :
    m.isGlobalIdMapped g = some (at' B g) := by
  unfold LocalIDMapper.isGlobalIdMapped
  have c : decide (g < m.bitCount) = true := by rw [h.count]; simpa using hg
  simp only [c, check_true, Option.bind_eq_bind, Option.bind_some, rd_wordAt (h.word_lt hg), h.bit_at]

theorem Ok.rankOf (h : m.Ok B) {g : Nat} (hg : at' B g = true) :
    m.rankOf g = some (rk (at' B) g) := by
  have hgl := at_eq_true_lt hg
  unfold LocalIDMapper.rankOf
  have hl := h.len
  rw [h.table.2 (g / 512) (by omega)]
  have hsum := sumWords (ws := m.bits) (lo := g / 512 * 8) (hi := g / 64) (s := rk (bit m.bits) (512 * (g / 512)))
    (by omega) (by omega) (by congr 1; omega)
  have hlast : rk (bit m.bits) (64 * (g / 64)) +
      popcount (wordAt m.bits (g / 64) &&& ((1#64 <<< (g % 64)) - 1#64)) = rk (at' B) g := by
    rw [popcount_and_mask (by omega), ← h.rk_eq]
    conv_rhs => rw [← Nat.div_add_mod g 64, rk_add]
    congr 1
    apply rk_congr; intro i hi
    rw [bit_word (by omega)]
  have hlt : decide (rk (at' B) g < m.localIdCount) = true := by
    rw [h.localIdCount, ← countP_at B B.length (Nat.le_refl _)]
    exact decide_eq_true (rk_lt_of_set hg hgl)
  simp only [Option.bind_eq_bind, Option.bind_some, hsum, rd_wordAt (h.word_lt hgl), hlast, hlt, check_true]

theorem Ok.toLocal (h : m.Ok B) {g : Nat} (hg : at' B g = true) :
    m.toLocal g = some (rk (at' B) g) := by
  have hgl := at_eq_true_lt hg
  unfold LocalIDMapper.toLocal LocalIDMapper.globalIdCount
  have c : decide (g < m.bitCount) = true := by rw [h.count]; simpa using hgl
  simp only [c, check_true, Option.bind_eq_bind, Option.bind_some, rd_wordAt (h.word_lt hgl), h.bit_at,
    hg, h.rankOf hg]

theorem Ok.toLocal_unmapped (h : m.Ok B) {g : Nat} (hg : at' B g = false) : m.toLocal g = none := by
  unfold LocalIDMapper.toLocal LocalIDMapper.globalIdCount
  by_cases hgl : g < B.length
  · have c : decide (g < m.bitCount) = true := by rw [h.count]; simpa using hgl
    simp only [c, check_true, Option.bind_eq_bind, Option.bind_some, rd_wordAt (h.word_lt hgl), h.bit_at, hg]
    rfl
  · have c : decide (g < m.bitCount) = false := by rw [h.count]; simpa using hgl
    simp only [c, Option.bind_eq_bind]
    rfl

theorem Ok.toLocalOr (h : m.Ok B) (g inv : Nat) :
    m.toLocalOr g inv = some (if at' B g then rk (at' B) g else inv) := by
  unfold LocalIDMapper.toLocalOr LocalIDMapper.globalIdCount
  rw [h.count]
  by_cases hgl : g < B.length
  · rw [if_neg (by omega)]
    simp only [Option.bind_eq_bind, Option.bind_some, rd_wordAt (h.word_lt hgl)]
    have hb := h.bit_at g
    cases hg : at' B g with
    | true =>
      rw [hg] at hb
      rw [if_neg (by simpa [bne] using hb)]
      rw [h.rankOf hg]; simp
    | false =>
      rw [hg] at hb
      rw [if_pos (by simpa [bne] using hb)]; simp
  · rw [if_pos (by omega), at_ge (by omega)]; simp

end LocalIDMapper

/-! ### IDMapper -/
namespace IDMapper
open LocalIDMapper

/-- Invariant of the select table construction before block `b`. -/
structure FillInv (f : Nat → Bool) (blocks size b : Nat) (s : List Nat × Nat × Nat) : Prop where
  len : s.1.length = size
  entries : ∀ i, i < size → ∃ e, rd s.1 i = some e ∧ (e = 0 ∨ e < blocks) ∧ rk f (512 * e) ≤ 256 * i
  val : (s.2.1 < 2 ^ 24 ∧ s.2.2 = s.2.1 * 256) ∨
    (s.2.1 = 2 ^ 24 ∧ s.2.2 = 0 ∧ ∀ b', b ≤ b' → 0 < rk f (512 * b'))

theorem fillLoop_spec {f : Nat → Bool} {rank : List Nat} {blocks size b : Nat}
    (ht : RankTable f rank blocks) (hsize : size = (rk f (512 * blocks) + 255) / 256) (hb : b < blocks) :
    ∀ {fuel : Nat} {s : List Nat × Nat × Nat}, FillInv f blocks size b s →
    1 ≤ fuel → (rk f (512 * b) ≤ s.2.2 → rk f (512 * (b + 1)) ≤ s.2.2 + 256 * (fuel - 1)) →
    ∃ s', fillLoop rank b fuel s = some s' ∧ FillInv f blocks size (b + 1) s'
  | 0, s, _, h1, _ => by omega
  | fuel + 1, (sel, q, val), h, _, hf => by
    have weaken : FillInv f blocks size (b + 1) (sel, q, val) := by
      refine ⟨h.len, h.entries, ?_⟩
      rcases h.val with h' | ⟨h1, h2, h3⟩
      · exact Or.inl h'
      · exact Or.inr ⟨h1, h2, fun b' hb' => h3 b' (by omega)⟩
    have hstep : rk f (512 * (b + 1)) ≤ rk f (512 * b) + 512 := by
      rw [Nat.mul_succ, rk_add]; have := rk_le (fun i => f (512 * b + i)) 512; omega
    unfold fillLoop
    rw [ht.2 b (by omega)]
    simp only [Option.bind_eq_bind, Option.bind_some]
    by_cases hlo : rk f (512 * b) ≤ val
    · rw [if_pos hlo, ht.2 (b + 1) (by omega)]
      simp only [Option.bind_some]
      by_cases hhi : val < rk f (512 * (b + 1))
      · rw [if_pos hhi]
        have hlen := h.len
        have hval := h.val
        simp only at hlen hval hf
        rcases hval with ⟨hq, hv⟩ | ⟨_, hv, hpos⟩
        · have hmono := rk_mono f (show 512 * (b + 1) ≤ 512 * blocks by omega)
          have hqs : q < size := by omega
          have hw : wr sel q b = some (sel.set q b) := wr_lt (by omega)
          have hmod : (q + 1) % u32 = q + 1 := Nat.mod_eq_of_lt (by unfold u32; omega)
          simp only [hw, Option.bind_some, hmod]
          have hinv : FillInv f blocks size b (sel.set q b, q + 1, (q + 1) * 256 % u32) := by
            refine ⟨by simpa using h.len, ?_, ?_⟩
            · intro i hi
              show ∃ e, rd (sel.set q b) i = some e ∧ _
              rw [rd_set (by omega)]
              by_cases hiq : i = q
              · subst hiq
                exact ⟨b, by rw [if_pos rfl], Or.inr hb, by omega⟩
              · obtain ⟨e, h1, h2⟩ := h.entries i hi
                exact ⟨e, by simpa [hiq] using h1, h2⟩
            · simp only
              by_cases hq1 : q + 1 < 2 ^ 24
              · exact Or.inl ⟨hq1, Nat.mod_eq_of_lt (by unfold u32; omega)⟩
              · right
                refine ⟨by omega, by rw [show q + 1 = 2 ^ 24 by omega]; rfl, ?_⟩
                intro b' hb'
                have := rk_mono f (show 512 * b ≤ 512 * b' by omega)
                omega
          apply fillLoop_spec ht hsize hb hinv
          · have := hf hlo
            by_contra hc
            rw [show fuel = 0 by omega] at this; omega
          · simp only
            intro hlo'
            have := hf hlo
            by_cases hq1 : q + 1 < 2 ^ 24
            · rw [Nat.mod_eq_of_lt (by unfold u32; omega)]; omega
            · rw [show q + 1 = 2 ^ 24 by omega] at hlo'
              have hz : 2 ^ 24 * 256 % u32 = 0 := rfl
              rw [hz] at hlo'; omega
        · have := hpos b (Nat.le_refl _); omega
      · rw [if_neg hhi]; exact ⟨_, rfl, weaken⟩
    · rw [if_neg hlo]; exact ⟨_, rfl, weaken⟩

/-- A correctly built mapper. -/
structure Ok (m : IDMapper) (B : List Bool) : Prop where
  base : m.base.Ok B
  len : m.select.length = (B.count true + 255) / 256
  entries : ∀ i, i < m.select.length → ∃ e, rd m.select i = some e ∧
    (e = 0 ∨ e < (B.length + 511) / 512) ∧ rk (bit m.base.bits) (512 * e) ≤ 256 * i

theorem new_spec (h : v.Rep B) : ∃ m, IDMapper.new v = some m ∧ m.Ok B ∧ LocalIDMapper.new v = some m.base := by
  obtain ⟨m, e, hm⟩ := LocalIDMapper.new_spec h
  unfold IDMapper.new
  simp only [e, Option.bind_eq_bind, Option.bind_some]
  have ht := hm.table
  have htot := hm.total (n := 512 * ((B.length + 511) / 512)) (by omega)
  have hl := hm.localIdCount
  rw [hl, ht.1, Nat.add_sub_cancel]
  obtain ⟨s, es, hs⟩ := forRange_inv (lo := 0) (hi := (B.length + 511) / 512)
    (s := (List.replicate ((B.count true + 255) / 256) 0, 0, 0))
    (f := fun s block => fillLoop m.rank block 4 s)
    (fun b s => FillInv (bit m.bits) ((B.length + 511) / 512) ((B.count true + 255) / 256) b s) (by omega)
    ⟨by simp, by
      intro i hi
      exact ⟨0, rd_replicate hi, Or.inl rfl, by simp [rk]⟩, Or.inl (by simp)⟩
    (by
      intro b s _ hb hs
      apply fillLoop_spec ht (by rw [htot]) hb hs (by omega)
      intro hlo
      have hstep : rk (bit m.bits) (512 * (b + 1)) ≤ rk (bit m.bits) (512 * b) + 512 := by
        rw [Nat.mul_succ, rk_add]; have := rk_le (fun i => bit m.bits (512 * b + i)) 512; omega
      omega)
  simp only [es, Option.bind_some]
  exact ⟨_, rfl, ⟨hm, hs.len, by rw [hs.len]; exact hs.entries⟩, rfl⟩

variable {m : IDMapper}

theorem Ok.toGlobal (h : m.Ok B) {l : Nat} (hl : l < B.count true) :
    ∃ g, m.toGlobal l = some g ∧ Sel (at' B) l g := by
  have hb := h.base
  unfold IDMapper.toGlobal
  have hlen := h.len
  obtain ⟨s, e, hs, hr⟩ := h.entries (l / 256) (by omega)
  have hnz : 0 < B.length := by
    have := List.count_le_length (a := true) (l := B); omega
  have hblk : s < (B.length + 511) / 512 := by omega
  have c1 : decide (l < m.base.localIdCount) = true := by rw [hb.localIdCount]; simpa using hl
  have htr := hb.table.2 s (by omega)
  have c2 : decide (rk (bit m.base.bits) (512 * s) ≤ l) = true := by simp; omega
  have hbd := hb.bound
  have hsmall : (B.length + 511) / 512 < 2 ^ 63 := by unfold u64 at hbd; omega
  obtain ⟨x, ex, hx⟩ := bitSelect_spec hb.table hb.len hsmall (n := l) (o := s)
    (by rw [hb.total (by omega)]; exact hl) hblk (by omega)
  have hsel : Sel (at' B) l (x + 512 * s) := ⟨by rw [← hb.bits]; exact hx.1, by rw [← hb.rk_eq]; exact hx.2⟩
  have hgl := at_eq_true_lt hsel.1
  refine ⟨x + 512 * s, ?_, hsel⟩
  simp only [c1, check_true, Option.bind_eq_bind, Option.bind_some, e, htr, c2, hb.count, ex,
    hb.isGlobalIdMapped hgl, hsel.1, hb.toLocal hsel.1, hsel.2]
  rfl

end IDMapper
end RK
