import Verif.Model.Permutation
import Mathlib.Data.List.Nodup
import Mathlib.Data.List.Range
import Mathlib.Data.List.Perm.Basic
import Mathlib.Data.List.Perm.Subperm
/-! Helper lemmas for the permutation functions. -/
namespace RK

/-- Working form of "is a permutation of `0..n-1`". -/
structure IsPerm (p : List Nat) : Prop where
  lt : ∀ x ∈ p, x < p.length
  nodup : p.Nodup

theorem IsPerm.rd {p : List Nat} (h : IsPerm p) {i : Nat} (hi : i < p.length) :
    ∃ x, rd p i = some x ∧ x < p.length :=
  ⟨p[i], rd_lt hi, h.lt _ (List.getElem_mem hi)⟩

theorem IsPerm.inj {p : List Nat} (h : IsPerm p) {i j x : Nat}
    (hi : RK.rd p i = some x) (hj : RK.rd p j = some x) : i = j := by
  obtain ⟨hi1, hi2⟩ := rd_eq_some.1 hi
  obtain ⟨hj1, hj2⟩ := rd_eq_some.1 hj
  exact (List.Nodup.getElem_inj_iff h.nodup).1 (hi2.trans hj2.symm)

theorem isPerm_iff_perm {p : List Nat} : IsPerm p ↔ p.Perm (List.range p.length) := by
  constructor
  · intro h
    have hsub : p.Subperm (List.range p.length) :=
      h.nodup.subperm (fun x hx => List.mem_range.2 (h.lt x hx))
    exact hsub.perm_of_length_le (by simp)
  · intro h
    refine ⟨fun x hx => List.mem_range.1 (h.mem_iff.1 hx), h.nodup_iff.2 (List.nodup_range)⟩

theorem IsPerm.mem {p : List Nat} (h : IsPerm p) {x : Nat} (hx : x < p.length) : x ∈ p :=
  (isPerm_iff_perm.1 h).mem_iff.2 (List.mem_range.2 hx)

theorem IsPerm.surj {p : List Nat} (h : IsPerm p) {x : Nat} (hx : x < p.length) :
    ∃ i, i < p.length ∧ RK.rd p i = some x := by
  obtain ⟨i, hi, e⟩ := List.getElem_of_mem (h.mem hx)
  exact ⟨i, hi, rd_eq_some.2 ⟨hi, e⟩⟩

theorem isPermutationLoop_spec (n : Nat) : ∀ (xs : List Nat) (found : List Bool),
    found.length = n →
    isPermutationLoop n xs found =
      some (decide ((∀ x ∈ xs, x < n) ∧ xs.Nodup ∧ ∀ x ∈ xs, rd found x = some false))
  | [], found, _ => by simp [isPermutationLoop]
  | x :: xs, found, hl => by
    unfold isPermutationLoop
    by_cases hx : n ≤ x
    · have : ¬ x < n := by omega
      simp [hx, this]
    · have hx' : x < n := by omega
      have hx'' : x < found.length := by omega
      rw [if_neg hx, rd_lt hx'']
      simp only [Option.bind_eq_bind, Option.bind_some]
      by_cases hb : found[x] = true
      · simp [hb, rd_lt hx'']
      · rw [if_neg hb, wr_lt hx'']
        simp only [Option.bind_some]
        rw [isPermutationLoop_spec n xs _ (by simp [hl])]
        have hb' : found[x] = false := by simpa using hb
        congr 1
        rw [decide_eq_decide]
        simp only [List.mem_cons, forall_eq_or_imp, List.nodup_cons, hx', true_and]
        constructor
        · rintro ⟨h1, h2, h3⟩
          refine ⟨h1, ⟨?_, h2⟩, by simp [rd_lt hx'', hb'], ?_⟩
          · intro hmem
            have := h3 x hmem
            rw [rd_set hx''] at this
            simp at this
          · intro y hy
            have := h3 y hy
            rw [rd_set hx''] at this
            split at this
            · simp at this
            · exact this
        · rintro ⟨h1, ⟨h2, h3⟩, _, h5⟩
          refine ⟨h1, h3, ?_⟩
          intro y hy
          rw [rd_set hx'', if_neg (by rintro rfl; exact h2 hy)]
          exact h5 y hy

theorem isPermutation_iff {p : List Nat} : isPermutation p = some true ↔ IsPerm p := by
  unfold isPermutation
  rw [isPermutationLoop_spec _ _ _ (by simp)]
  simp only [Option.some.injEq, decide_eq_true_eq]
  constructor
  · rintro ⟨h1, h2, _⟩; exact ⟨h1, h2⟩
  · rintro ⟨h1, h2⟩
    exact ⟨h1, h2, fun x hx => rd_replicate (h1 x hx)⟩

theorem isPermutation_total (p : List Nat) : ∃ b, isPermutation p = some b := by
  unfold isPermutation
  rw [isPermutationLoop_spec _ _ _ (by simp)]
  exact ⟨_, rfl⟩

theorem checkPerm_iff {p : List Nat} : checkPerm p = some () ↔ IsPerm p := by
  rw [← isPermutation_iff]
  unfold checkPerm
  obtain ⟨b, hb⟩ := isPermutation_total p
  rw [hb]
  simp

theorem checkPerm_of {p : List Nat} (h : IsPerm p) : checkPerm p = some () := checkPerm_iff.2 h

/-- A loop that writes `g i` to position `i` for all `i` fills the vector with `g`. -/
theorem fill_loop {α : Type} {n : Nat} (g : Nat → α) (f : List α → Nat → Option (List α))
    (r0 : List α) (h0 : r0.length = n)
    (hf : ∀ r i, i < n → r.length = n → (∀ j, i ≤ j → rd r j = rd r0 j) → f r i = wr r i (g i)) :
    ∃ r, forRange 0 n r0 f = some r ∧ r.length = n ∧ ∀ i, i < n → rd r i = some (g i) := by
  have := forRange_inv (f := f) (lo := 0) (hi := n) (s := r0)
    (fun k r => r.length = n ∧ (∀ i, i < k → rd r i = some (g i)) ∧
      (∀ j, k ≤ j → rd r j = rd r0 j)) (by omega)
    ⟨h0, by intro i hi; omega, fun _ _ => rfl⟩
    (by
      rintro i r _ hi ⟨hl, hr, hr0⟩
      have hi' : i < r.length := by omega
      refine ⟨r.set i (g i), by rw [hf r i hi hl hr0, wr_lt hi'], by simp [hl], ?_, ?_⟩
      · intro j hj
        rw [rd_set hi']
        split
        · simp_all
        · exact hr j (by omega)
      · intro j hj
        rw [rd_set hi', if_neg (by omega)]
        exact hr0 j (by omega))
  obtain ⟨r, e, hl, hr, _⟩ := this
  exact ⟨r, e, hl, hr⟩

/-- A loop that writes `g i` to position `t i`, `t` injective on `0..n-1`. -/
theorem scatter_loop {α : Type} {n m : Nat} (t : Nat → Nat) (g : Nat → α)
    (f : List α → Nat → Option (List α))
    (r0 : List α) (h0 : r0.length = m)
    (ht : ∀ i, i < n → t i < m) (hinj : ∀ i j, i < n → j < n → t i = t j → i = j)
    (hf : ∀ r i, i < n → r.length = m → f r i = wr r (t i) (g i)) :
    ∃ r, forRange 0 n r0 f = some r ∧ r.length = m ∧ (∀ i, i < n → rd r (t i) = some (g i)) ∧
      (∀ j, (∀ i, i < n → t i ≠ j) → rd r j = rd r0 j) := by
  have := forRange_inv (f := f) (lo := 0) (hi := n) (s := r0)
    (fun k r => r.length = m ∧ (∀ i, i < k → rd r (t i) = some (g i)) ∧
      (∀ j, (∀ i, i < k → t i ≠ j) → rd r j = rd r0 j)) (by omega)
    ⟨h0, by intro i hi; omega, fun _ _ => rfl⟩
    (by
      rintro i r _ hi ⟨hl, hr, hr0⟩
      have hi' : t i < r.length := by rw [hl]; exact ht i hi
      refine ⟨r.set (t i) (g i), by rw [hf r i hi hl, wr_lt hi'], by simp [hl], ?_, ?_⟩
      · intro j hj
        rw [rd_set hi']
        by_cases hji : j = i
        · subst hji; simp
        · rw [if_neg (fun h => hji (hinj j i (by omega) hi h))]
          exact hr j (by omega)
      · intro j hj
        rw [rd_set hi', if_neg (fun h => hj i (by omega) h.symm)]
        exact hr0 j (fun i' hi' => hj i' (by omega)))
  obtain ⟨r, e, hl, hr, hr0⟩ := this
  exact ⟨r, e, hl, hr, hr0⟩

theorem identityPermutation_eq (n : Nat) : identityPermutation n = some (List.range n) := by
  obtain ⟨r, e, hl, hr⟩ := fill_loop (n := n) (fun i => i) (fun r i => wr r i i)
    (List.replicate n 0) (by simp) (fun r i _ _ _ => rfl)
  unfold identityPermutation
  rw [e]
  congr 1
  apply list_ext_rd (by simp [hl])
  intro i hi
  rw [hr i (by omega)]
  exact (List.getElem?_range (by omega)).symm

section
variable {α : Type} [Inhabited α]

theorem applyPermutation_spec {p : List Nat} {v : List α} (hp : IsPerm p)
    (hl : p.length = v.length) :
    ∃ r, applyPermutation p v = some r ∧ r.length = v.length ∧
      ∀ i pi, rd p i = some pi → rd r i = rd v pi := by
  unfold applyPermutation
  rw [checkPerm_of hp]
  simp only [Option.bind_eq_bind, Option.bind_some, hl, beq_self_eq_true, check_true]
  obtain ⟨r, e, h1, h2⟩ := fill_loop (n := v.length)
    (fun i => ((rd p i).bind (rd v)).getD default)
    (fun r i => (rd p i).bind fun pi => (rd v pi).bind fun x => wr r i x)
    (List.replicate v.length default) (by simp)
    (by
      intro r i hi _ _
      obtain ⟨x, hx, hx'⟩ := hp.rd (i := i) (by omega)
      obtain ⟨y, hy⟩ := rd_isSome (v := v) (i := x) (by omega)
      simp [hx, hy])
  refine ⟨r, e, h1, ?_⟩
  intro i pi hpi
  have hi := rd_some_lt hpi
  rw [h2 i (by omega)]
  obtain ⟨x, hx, hx'⟩ := hp.rd (i := i) (by omega)
  have : x = pi := by rw [hx] at hpi; injection hpi
  subst this
  obtain ⟨y, hy⟩ := rd_isSome (v := v) (i := x) (by omega)
  simp [hx, hy]

theorem applyInversePermutation_spec {p : List Nat} {v : List α} (hp : IsPerm p)
    (hl : p.length = v.length) :
    ∃ r, applyInversePermutation p v = some r ∧ r.length = v.length ∧
      ∀ i pi, rd p i = some pi → rd r pi = rd v i := by
  unfold applyInversePermutation
  rw [checkPerm_of hp]
  simp only [Option.bind_eq_bind, Option.bind_some, hl, beq_self_eq_true, check_true]
  obtain ⟨r, e, h1, h2, _⟩ := scatter_loop (n := v.length) (m := v.length)
    (fun i => (rd p i).getD 0) (fun i => (rd v i).getD default)
    (fun r i => (rd p i).bind fun pi => (rd v i).bind fun x => wr r pi x)
    (List.replicate v.length default) (by simp)
    (by
      intro i hi
      obtain ⟨x, hx, hx'⟩ := hp.rd (i := i) (by omega)
      simp [hx]; omega)
    (by
      intro i j hi hj h
      obtain ⟨x, hx, hx'⟩ := hp.rd (i := i) (by omega)
      obtain ⟨y, hy, hy'⟩ := hp.rd (i := j) (by omega)
      simp [hx, hy] at h
      subst h
      exact hp.inj hx hy)
    (by
      intro r i hi _
      obtain ⟨x, hx, hx'⟩ := hp.rd (i := i) (by omega)
      obtain ⟨y, hy⟩ := rd_isSome (v := v) (i := i) (by omega)
      simp [hx, hy])
  refine ⟨r, e, h1, ?_⟩
  intro i pi hpi
  have hi := rd_some_lt hpi
  have := h2 i (by omega)
  obtain ⟨y, hy⟩ := rd_isSome (v := v) (i := i) (by omega)
  simpa [hpi, hy] using this

end

theorem chainPermutation_spec {p q : List Nat} (hp : IsPerm p) (hq : IsPerm q)
    (hl : p.length = q.length) :
    ∃ r, chainPermutation p q = some r ∧ r.length = p.length ∧
      ∀ i qi, rd q i = some qi → rd r i = rd p qi := by
  unfold chainPermutation
  rw [checkPerm_of hp, checkPerm_of hq]
  simp only [Option.bind_eq_bind, Option.bind_some, hl, beq_self_eq_true, check_true]
  obtain ⟨r, e, h1, h2⟩ := fill_loop (n := q.length)
    (fun i => ((rd q i).bind (rd p)).getD 0)
    (fun r i => (rd q i).bind fun pi => (rd p pi).bind fun x => wr r i x)
    (List.replicate q.length 0) (by simp)
    (by
      intro r i hi _ _
      obtain ⟨x, hx, hx'⟩ := hq.rd (i := i) (by omega)
      obtain ⟨y, hy⟩ := rd_isSome (v := p) (i := x) (by omega)
      simp [hx, hy])
  refine ⟨r, e, h1, ?_⟩
  intro i pi hpi
  have hi := rd_some_lt hpi
  rw [h2 i (by omega)]
  obtain ⟨x, hx, hx'⟩ := hq.rd (i := i) (by omega)
  have : x = pi := by rw [hx] at hpi; injection hpi
  subst this
  obtain ⟨y, hy⟩ := rd_isSome (v := p) (i := x) (by omega)
  simp [hx, hy]

theorem isPerm_of_rd {r : List Nat}
    (hlt : ∀ i x, rd r i = some x → x < r.length)
    (hinj : ∀ i j x, rd r i = some x → rd r j = some x → i = j) : IsPerm r := by
  constructor
  · intro x hx
    obtain ⟨i, hi, e⟩ := List.getElem_of_mem hx
    exact hlt i x (rd_eq_some.2 ⟨hi, e⟩)
  · rw [List.nodup_iff_injective_getElem]
    intro i j hij
    apply Fin.ext
    exact hinj i j r[(i:Nat)] (rd_lt i.2) ((rd_lt j.2).trans (congrArg some hij.symm))

theorem chainPermutation_isPerm {p q r : List Nat} (hp : IsPerm p) (hq : IsPerm q)
    (hl : p.length = q.length) (h : chainPermutation p q = some r) : IsPerm r := by
  obtain ⟨r', e, h1, h2⟩ := chainPermutation_spec hp hq hl
  rw [h] at e
  injection e with e
  subst e
  apply isPerm_of_rd
  · intro i x hx
    have hi := rd_some_lt hx
    obtain ⟨y, hy, _⟩ := hq.rd (i := i) (by omega)
    rw [h2 i y hy] at hx
    rw [h1]
    obtain ⟨h1, h2⟩ := rd_eq_some.1 hx
    rw [← h2]
    exact hp.lt _ (List.getElem_mem h1)
  · intro i j x hx hx'
    obtain ⟨y, hy, _⟩ := hq.rd (i := i) (by have := rd_some_lt hx; omega)
    obtain ⟨z, hz, _⟩ := hq.rd (i := j) (by have := rd_some_lt hx'; omega)
    rw [h2 i y hy] at hx
    rw [h2 j z hz] at hx'
    have := hp.inj hx hx'
    subst this
    exact hq.inj hy hz

theorem invertPermutation_spec {p : List Nat} (hp : IsPerm p) :
    ∃ r, invertPermutation p = some r ∧ r.length = p.length ∧ IsPerm r ∧
      ∀ i j, i < p.length → (rd r j = some i ↔ rd p i = some j) := by
  unfold invertPermutation
  rw [checkPerm_of hp]
  simp only [Option.bind_eq_bind, Option.bind_some]
  obtain ⟨r, e, h1, h2, _⟩ := scatter_loop (n := p.length) (m := p.length)
    (fun i => (rd p i).getD 0) (fun i => i)
    (fun r i => (rd p i).bind fun pi => wr r pi i)
    (List.replicate p.length 0) (by simp)
    (by
      intro i hi
      obtain ⟨x, hx, hx'⟩ := hp.rd hi
      simp [hx]; omega)
    (by
      intro i j hi hj h
      obtain ⟨x, hx, hx'⟩ := hp.rd hi
      obtain ⟨y, hy, hy'⟩ := hp.rd hj
      simp [hx, hy] at h
      subst h
      exact hp.inj hx hy)
    (by
      intro r i hi _
      obtain ⟨x, hx, hx'⟩ := hp.rd hi
      simp [hx])
  have key : ∀ i j, rd p i = some j → rd r j = some i := by
    intro i j hij
    have := h2 i (rd_some_lt hij)
    simpa [hij] using this
  have key2 : ∀ i j, rd r j = some i → rd p i = some j := by
    intro i j hij
    obtain ⟨k, hk, hk'⟩ := hp.surj (x := j) (by have := rd_some_lt hij; omega)
    have := key k j hk'
    rw [this] at hij
    injection hij with hij
    subst hij
    exact hk'
  refine ⟨r, e, h1, ?_, fun i j _ => ⟨key2 i j, key i j⟩⟩
  apply isPerm_of_rd
  · intro i x hx
    have := rd_some_lt (key2 x i hx)
    omega
  · intro i j x hx hy
    have a := key2 x i hx
    have b := key2 x j hy
    rw [a] at b
    injection b

theorem applyPermutationToElementsOf_spec {p v : List Nat} (hp : IsPerm p) (hv : ∀ x ∈ v, x < p.length) :
    ∃ r, applyPermutationToElementsOf p v = some r ∧ r.length = v.length ∧
      ∀ i x, rd v i = some x → rd r i = rd p x := by
  have hall : (v.all fun x => decide (x < p.length)) = true := by simpa using hv
  unfold applyPermutationToElementsOf inplaceApplyPermutationToElementsOf
  rw [checkPerm_of hp]
  simp only [Option.bind_eq_bind, Option.bind_some, hall, check_true]
  obtain ⟨r, e, h1, h2⟩ := fill_loop (n := v.length)
    (fun i => (rd p ((rd v i).getD 0)).getD 0)
    (fun v i => (rd v i).bind fun vi => (rd p vi).bind fun x => wr v i x)
    v rfl
    (by
      intro r i hi hl hr
      rw [hr i (Nat.le_refl _)]
      obtain ⟨x, hx⟩ := rd_isSome (v := v) (i := i) hi
      obtain ⟨y, hy⟩ := rd_isSome (v := p) (i := x) (hv x (List.mem_of_getElem? hx))
      simp [hx, hy])
  refine ⟨r, e, h1, ?_⟩
  intro i x hx
  have := h2 i (rd_some_lt hx)
  obtain ⟨y, hy⟩ := rd_isSome (v := p) (i := x) (hv x (List.mem_of_getElem? hx))
  rw [this, hx, Option.getD_some, hy, Option.getD_some]

theorem isPerm_range (n : Nat) : IsPerm (List.range n) :=
  isPerm_iff_perm.2 (by simp)

end RK
