import Verif.Proof.OsmTurns
/-! # Proofs about the list of forbidden turns -/
namespace RK.Osm
open Spec BitVector

variable {fl : FloatOps} {σ : Type}

/-! ### Sorting and removing duplicates -/

def lexLe (p q : Nat × Nat) : Prop := p.1 < q.1 ∨ (p.1 = q.1 ∧ p.2 ≤ q.2)
def lexLt (p q : Nat × Nat) : Prop := p.1 < q.1 ∨ (p.1 = q.1 ∧ p.2 < q.2)

theorem lexLt_of {p q : Nat × Nat} (h : lexLe p q) (hn : p ≠ q) : lexLt p q := by
  obtain ⟨a, b⟩ := p
  obtain ⟨c, d⟩ := q
  simp only [lexLe, lexLt, ne_eq, Prod.mk.injEq] at *
  omega

theorem lexLt_trans {p q s : Nat × Nat} (h : lexLt p q) (h' : lexLe q s) : lexLt p s := by
  simp only [lexLe, lexLt] at *
  omega

/-- The marks of the duplicates; `prev` is the element before. -/
def bits (prev : Option (Nat × Nat)) : List (Nat × Nat) → List Bool
  | [] => []
  | x :: l => decide (prev = some x) :: bits (some x) l

def dedup (prev : Option (Nat × Nat)) : List (Nat × Nat) → List (Nat × Nat)
  | [] => []
  | x :: l => if prev = some x then dedup (some x) l else x :: dedup (some x) l

theorem bits_length : ∀ (prev : Option (Nat × Nat)) (l : List (Nat × Nat)), (bits prev l).length = l.length
  | _, [] => rfl
  | _, x :: l => by rw [bits, List.length_cons, bits_length, List.length_cons]

theorem bits_get : ∀ (prev : Option (Nat × Nat)) (l : List (Nat × Nat)) (i : Nat), (bits prev l)[i]? =
    (l[i]?).map fun x => decide ((if i = 0 then prev else l[i - 1]?) = some x)
  | _, [], i => by simp [bits]
  | prev, x :: l, 0 => by simp [bits]
  | prev, x :: l, i + 1 => by
    rw [bits, List.getElem?_cons_succ, bits_get, List.getElem?_cons_succ]
    congr 1
    funext y
    cases i with
    | zero => simp
    | succ i => simp

theorem pick_bits : ∀ (prev : Option (Nat × Nat)) (l : List (Nat × Nat)), pick false (bits prev l) l = dedup prev l
  | _, [] => rfl
  | prev, x :: l => by
    have ih := pick_bits (some x) l
    unfold pick at *
    rw [bits, dedup, List.zip_cons_cons, List.filter_cons]
    by_cases h : prev = some x
    · rw [if_neg (by simp [h]), if_pos h, ih]
    · rw [if_pos (by simp [h]), if_neg h, List.map_cons, ih]

theorem pick_fun {β γ : Type} (f : β → γ) (w : Bool) : ∀ (B : List Bool) (l : List β), pick w B (l.map f) = (pick w B l).map f
  | [], l => by simp [pick]
  | b :: B, [] => by simp [pick]
  | b :: B, x :: l => by
    have ih := pick_fun f w B l
    unfold pick at *
    rw [List.map_cons, List.zip_cons_cons, List.zip_cons_cons, List.filter_cons, List.filter_cons]
    by_cases h : b == w
    · simp only [h, if_true, List.map_cons, ih]
    · simp only [h, Bool.false_eq_true, if_false, ih]

theorem dedup_mem : ∀ (prev : Option (Nat × Nat)) (l : List (Nat × Nat)) (y : Nat × Nat),
    (y ∈ dedup prev l → y ∈ l) ∧ (y ∈ l → y ∈ dedup prev l ∨ prev = some y)
  | _, [], y => by simp [dedup]
  | prev, x :: l, y => by
    obtain ⟨h1, h2⟩ := dedup_mem (some x) l y
    rw [dedup]
    by_cases h : prev = some x
    · rw [if_pos h]
      refine ⟨fun hy => List.mem_cons_of_mem _ (h1 hy), fun hy => ?_⟩
      rcases List.mem_cons.1 hy with rfl | hy
      · exact Or.inr h
      · rw [h]; exact h2 hy
    · rw [if_neg h]
      refine ⟨fun hy => ?_, fun hy => Or.inl ?_⟩
      · rcases List.mem_cons.1 hy with rfl | hy
        · exact List.mem_cons_self
        · exact List.mem_cons_of_mem _ (h1 hy)
      · rcases List.mem_cons.1 hy with rfl | hy
        · exact List.mem_cons_self
        · rcases h2 hy with h | h
          · exact List.mem_cons_of_mem _ h
          · cases h; exact List.mem_cons_self

theorem dedup_sorted : ∀ (prev : Option (Nat × Nat)) (l : List (Nat × Nat)), l.Pairwise lexLe → (∀ x, prev = some x → ∀ y ∈ l, lexLe x y) →
    (dedup prev l).Pairwise lexLt ∧ ∀ x, prev = some x → ∀ y ∈ dedup prev l, lexLt x y
  | _, [], _, _ => by simp [dedup]
  | prev, z :: l, hl, hp => by
    rw [List.pairwise_cons] at hl
    obtain ⟨h1, h2⟩ := dedup_sorted (some z) l hl.2 (by intro x hx; cases hx; exact hl.1)
    rw [dedup]
    by_cases h : prev = some z
    · rw [if_pos h]
      refine ⟨h1, ?_⟩
      intro x hx
      rw [h] at hx; cases hx
      exact h2 z rfl
    · rw [if_neg h]
      refine ⟨List.pairwise_cons.2 ⟨h2 z rfl, h1⟩, ?_⟩
      intro x hx y hy
      have hxz : lexLt x z := lexLt_of (hp x hx z List.mem_cons_self) (by rintro rfl; exact h hx)
      rcases List.mem_cons.1 hy with rfl | hy
      · exact hxz
      · exact lexLt_trans hxz (hl.1 y ((dedup_mem (some z) l y).1 hy))

theorem sortTurns_ok {junk : Nat → Word} {n : Nat} {fb : List (Nat × Nat)} (h : ∀ p ∈ fb, p.1 < n ∧ p.2 < n) (hl : fb.length + 511 < u64) :
    ∃ Q : List (Nat × Nat), sortTurns junk n fb = some (Q.map (·.1), Q.map (·.2)) ∧ Q.Pairwise lexLt ∧ ∀ p, p ∈ Q ↔ p ∈ fb := by
  obtain ⟨p, t', h', r, e1, e2, hS, _⟩ := sortInv_spec (n := n) (t := fb.map (·.1)) (h := fb.map (·.2)) (by simp) (by
      intro x hx
      obtain ⟨p, hp, rfl⟩ := List.mem_map.1 hx
      exact (h p hp).1) (by
      intro x hx
      obtain ⟨p, hp, rfl⟩ := List.mem_map.1 hx
      exact (h p hp).2)
  have lt := hS.lenT
  have lh := hS.lenH
  rw [List.length_map] at lt lh
  obtain ⟨ps, hps⟩ : ∃ ps, ps = t'.zip h' := ⟨_, rfl⟩
  have ht' : t' = ps.map (·.1) := by rw [hps, List.map_fst_zip (by omega)]
  have hh' : h' = ps.map (·.2) := by rw [hps, List.map_snd_zip (by omega)]
  have hpl : ps.length = fb.length := by rw [hps, List.length_zip]; omega
  have hsort : ps.Pairwise lexLe := by
    rw [List.pairwise_iff_getElem]
    intro i j hi hj hij
    refine hS.le i j _ _ _ _ hij ?_ ?_ ?_ ?_
    · rw [ht', rd, List.getElem?_map, List.getElem?_eq_getElem hi]; rfl
    · rw [ht', rd, List.getElem?_map, List.getElem?_eq_getElem hj]; rfl
    · rw [hh', rd, List.getElem?_map, List.getElem?_eq_getElem hi]; rfl
    · rw [hh', rd, List.getElem?_map, List.getElem?_eq_getElem hj]; rfl
  have hmem : ∀ x, x ∈ ps ↔ x ∈ fb := by
    rintro ⟨x, y⟩
    have key := hS.hasArc x y
    unfold HasArc rd at key
    rw [List.mem_iff_getElem?, List.mem_iff_getElem?]
    constructor
    · rintro ⟨i, hi⟩
      obtain ⟨k, h1, h2⟩ := key.1 ⟨i, by rw [ht', List.getElem?_map, hi]; rfl, by rw [hh', List.getElem?_map, hi]; rfl⟩
      rw [List.getElem?_map, Option.map_eq_some_iff] at h1 h2
      obtain ⟨a, h1, rfl⟩ := h1
      obtain ⟨b, h2, rfl⟩ := h2
      rw [h1] at h2; cases h2
      exact ⟨k, h1⟩
    · rintro ⟨i, hi⟩
      obtain ⟨k, h1, h2⟩ := key.2 ⟨i, by rw [List.getElem?_map, hi]; rfl, by rw [List.getElem?_map, hi]; rfl⟩
      rw [ht', List.getElem?_map, Option.map_eq_some_iff] at h1
      rw [hh', List.getElem?_map, Option.map_eq_some_iff] at h2
      obtain ⟨a, h1, rfl⟩ := h1
      obtain ⟨b, h2, rfl⟩ := h2
      rw [h1] at h2; cases h2
      exact ⟨k, h1⟩
  obtain ⟨v, e3, hr⟩ := rep_make (n := t'.length) (by omega) (fun x =>
    if x = 0 then false else decide (rd t' (x - 1) = rd t' x) && decide (rd h' (x - 1) = rd h' x)) junk
  have hB : (List.range t'.length).map (fun x =>
      if x = 0 then false else decide (rd t' (x - 1) = rd t' x) && decide (rd h' (x - 1) = rd h' x)) = bits none ps := by
    apply List.ext_getElem?
    intro i
    rw [bits_get, List.getElem?_map]
    by_cases hi : i < t'.length
    · have hi2 : i < ps.length := by omega
      rw [List.getElem?_range hi, List.getElem?_eq_getElem hi2, Option.map_some, Option.map_some]
      by_cases h0 : i = 0
      · simp [h0]
      · rw [if_neg h0, if_neg h0]
        have hi3 : i - 1 < ps.length := by omega
        simp only [ht', hh', rd, List.getElem?_map, List.getElem?_eq_getElem hi2, List.getElem?_eq_getElem hi3, Option.map_some, Option.some.injEq]
        rw [← Bool.decide_and]
        congr 1
        rw [Prod.ext_iff]
    · rw [List.getElem?_eq_none (by simpa using hi), List.getElem?_eq_none (l := ps) (i := i) (by omega)]; rfl
  rw [hB] at hr
  obtain ⟨q1, _⟩ := dedup_sorted none ps hsort (by simp)
  refine ⟨dedup none ps, ?_, q1, ?_⟩
  · unfold sortTurns
    have c1 : isSortedUsingLess t' = true := (isSortedUsingLess_iff _).2 hS.pairwise
    have f1 : inplaceRemove v t' = some ((dedup none ps).map (·.1)) := by
      unfold inplaceRemove
      rw [inplaceFilter_spec hr false t' (by rw [bits_length]; omega), ht', pick_fun, pick_bits]
    have f2 : inplaceRemove v h' = some ((dedup none ps).map (·.2)) := by
      unfold inplaceRemove
      rw [inplaceFilter_spec hr false h' (by rw [bits_length]; omega), hh', pick_fun, pick_bits]
    have c2 : isSortedUsingLess ((dedup none ps).map (·.1)) = true := by
      rw [isSortedUsingLess_iff, List.pairwise_map]
      refine q1.imp ?_
      intro a b hab
      simp only [lexLt] at hab
      omega
    simp only [e1, e2, Option.bind_eq_bind, Option.bind_some, c1, check_true, e3, f1, f2, c2]
  · intro x
    rw [← hmem]
    refine ⟨(dedup_mem none ps x).1, fun hx => ?_⟩
    rcases (dedup_mem none ps x).2 hx with h | h
    · exact h
    · cases h

/-! ### Local ids -/

/-- The restriction `y` has the local ids of `x`. -/
structure LocalOf (E : Env fl) (Br Bw : List Bool) (x : TurnRestriction) (y : LocalRestriction) : Prop where
  category : y.category = x.category
  direction : y.direction = x.direction
  ways : WaysAre E Bw y x.fromWay.toNat x.toWay.toNat
  via : (x.viaNode = BitVec.allOnes 64 ∧ y.viaNode = invalidId) ∨
    (x.viaNode ≠ BitVec.allOnes 64 ∧ at' Br x.viaNode.toNat = true ∧ y.viaNode = E.locR x.viaNode.toNat)

section
variable {E : Env fl} {mp : Mappers} {Bm Br Bw : List Bool} {A : List MapArc} {r : RoutingGraph fl} {tail : List Nat}

theorem localRestriction_ok (hE : EnvOk E mp Bm Br Bw) (x : TurnRestriction) :
    ∃ o, localRestriction mp x = some o ∧ ∀ y, y ∈ o.toList ↔ LocalOf E Br Bw x y := by
  obtain ⟨f, e1, h1⟩ := localOr_eq hE.w hE.cw x.fromWay.toNat
  obtain ⟨t, e2, h2⟩ := localOr_eq hE.w hE.cw x.toWay.toNat
  obtain ⟨v, e3, h3⟩ := localOr_eq hE.r hE.cr x.viaNode.toNat
  rw [← hE.lw] at h1 h2
  rw [← hE.lr] at h3
  have ne : ∀ {w}, at' Bw w = true → E.locW w ≠ invalidId := by
    intro w hw
    rw [hE.lw]
    have := rk_lt_count hw
    have := hE.cw
    omega
  have nr : ∀ {w}, at' Br w = true → E.locR w ≠ invalidId := by
    intro w hw
    rw [hE.lr]
    have := rk_lt_count hw
    have := hE.cr
    omega
  have hi : invalidId % u32 = invalidId := by decide
  have none_case : ∀ (hno : ∀ y, ¬ LocalOf E Br Bw x y) y, y ∈ (none : Option LocalRestriction).toList ↔ LocalOf E Br Bw x y := by
    intro hno y
    simp [hno y]
  unfold localRestriction
  simp only [e1, e2, Option.bind_eq_bind, Option.bind_some, h1, h2]
  by_cases hf : at' Bw x.fromWay.toNat = true
  swap
  · refine ⟨none, ?_, none_case fun y hy => hf hy.ways.markedFrom⟩
    by_cases hm : x.viaNode = BitVec.allOnes 64
    · simp only [decide_eq_true hm, if_true, Option.bind_some, if_neg hf, true_or, or_true]
    · simp only [decide_eq_false hm, Bool.false_eq_true, if_false, e3, Option.bind_some, if_neg hf, true_or, or_true, if_true]
  by_cases ht : at' Bw x.toWay.toNat = true
  swap
  · refine ⟨none, ?_, none_case fun y hy => ht hy.ways.markedTo⟩
    by_cases hm : x.viaNode = BitVec.allOnes 64
    · simp only [decide_eq_true hm, if_true, Option.bind_some, if_neg ht, true_or, or_true]
    · simp only [decide_eq_false hm, Bool.false_eq_true, if_false, e3, Option.bind_some, if_neg ht, true_or, or_true, if_true]
  rw [if_pos hf, if_pos ht]
  by_cases hm : x.viaNode = BitVec.allOnes 64
  · refine ⟨some ⟨x.category, x.direction, E.locW x.fromWay.toNat, invalidId, E.locW x.toWay.toNat⟩, ?_, ?_⟩
    · simp only [decide_eq_true hm, if_true, Option.bind_some, hi]
      rw [if_neg]
      rintro (c | c | ⟨c, _⟩)
      · exact ne hf c
      · exact ne ht c
      · cases c
    · intro y
      rw [Option.mem_toList, Option.some.injEq]
      constructor
      · rintro rfl
        exact ⟨rfl, rfl, ⟨hf, ht, rfl, rfl⟩, Or.inl ⟨hm, rfl⟩⟩
      · rintro ⟨h4, h5, ⟨_, _, h6, h7⟩, ⟨_, h8⟩ | ⟨h8, _⟩⟩
        · obtain ⟨a, b, c, d, e⟩ := y
          simp only at h4 h5 h6 h7 h8
          rw [h4, h5, h6, h7, h8]
        · exact absurd hm h8
  · by_cases hv : at' Br x.viaNode.toNat = true
    · rw [if_pos hv] at h3
      refine ⟨some ⟨x.category, x.direction, E.locW x.fromWay.toNat, E.locR x.viaNode.toNat, E.locW x.toWay.toNat⟩, ?_, ?_⟩
      · simp only [decide_eq_false hm, Bool.false_eq_true, if_false, e3, Option.bind_some, h3]
        rw [if_neg]
        rintro (c | c | ⟨_, c⟩)
        · exact ne hf c
        · exact ne ht c
        · exact nr hv c
      · intro y
        rw [Option.mem_toList, Option.some.injEq]
        constructor
        · rintro rfl
          exact ⟨rfl, rfl, ⟨hf, ht, rfl, rfl⟩, Or.inr ⟨hm, hv, rfl⟩⟩
        · rintro ⟨h4, h5, ⟨_, _, h6, h7⟩, ⟨h8, _⟩ | ⟨_, _, h8⟩⟩
          · exact absurd h8 hm
          · obtain ⟨a, b, c, d, e⟩ := y
            simp only at h4 h5 h6 h7 h8
            rw [h4, h5, h6, h7, h8]
    · rw [if_neg hv] at h3
      refine ⟨none, by simp only [decide_eq_false hm, Bool.false_eq_true, if_false, e3, Option.bind_some, h3, and_self, or_true, if_true], none_case ?_⟩
      intro y hy
      rcases hy.via with ⟨h4, _⟩ | ⟨_, h4, _⟩
      · exact hm h4
      · exact hv h4

theorem localRestrictions_ok (hE : EnvOk E mp Bm Br Bw) (rs : List TurnRestriction) :
    ∃ l, localRestrictions mp rs = some l ∧ (∀ y, y ∈ l ↔ ∃ x ∈ rs, LocalOf E Br Bw x y) ∧ l.length ≤ rs.length := by
  obtain ⟨ds, h1, h2⟩ := forEach_collect (l := rs) (f := fun (acc : List LocalRestriction) x => (localRestriction mp x).bind fun r => some (acc ++ r.toList))
    (P := fun x d => (∀ y, y ∈ d ↔ LocalOf E Br Bw x y) ∧ d.length ≤ 1) (by
      intro x _
      obtain ⟨o, e, h⟩ := localRestriction_ok hE x
      exact ⟨o.toList, ⟨h, by cases o <;> simp⟩, fun acc => by rw [e, Option.bind_some]⟩)
  refine ⟨ds.flatten, ?_, ?_, ?_⟩
  · have := h2 []
    rw [List.nil_append] at this
    exact this
  · exact flatten_mem (h1.imp fun _ _ h => h.1)
  · have := flatten_length (h1.imp fun _ _ h => h.2)
    omega

/-- The via node of a restriction. -/
def viaOf (x : TurnRestriction) : Option Nat := if x.viaNode = BitVec.allOnes 64 then none else some x.viaNode.toNat

theorem forbidden_iff (h : TurnsOk E mp Bm Br Bw A r tail) {inc : Nat → Nat → Nat} (x : TurnRestriction) (p : Nat × Nat) :
    (∃ y, LocalOf E Br Bw x y ∧ (RepairForbids A inc y x.fromWay.toNat x.toWay.toNat p ∨
      ∃ z v, RepairKeeps E A y x.fromWay.toNat x.toWay.toNat z ∧ at' Br v = true ∧ z.viaNode = E.locR v ∧
        ForbidsAt A (fitsAt E A z.direction v) (decide (z.category = .mandatory)) x.fromWay.toNat v x.toWay.toNat p.1 p.2)) ↔
    Forbids A (fitsAt E A x.direction) inc (decide (x.category = .mandatory)) x.fromWay.toNat (viaOf x) x.toWay.toNat p.1 p.2 := by
  have inj : ∀ {v v'}, at' Br v = true → at' Br v' = true → E.locR v = E.locR v' → v = v' := by
    intro v v' h1 h2 h3
    refine rk_inj h1 h2 ?_
    rw [← h.env.lr]; exact h3
  have ne : ∀ {v}, at' Br v = true → E.locR v ≠ invalidId := by
    intro v hv
    have := h.node_lt hv
    have := h.env.cr
    omega
  have marked : ∀ {v mandatory}, ForbidsAt A (fitsAt E A x.direction v) mandatory x.fromWay.toNat v x.toWay.toNat p.1 p.2 →
      at' Br v = true ∧ at' Bw x.fromWay.toNat = true ∧ at' Bw x.toWay.toNat = true := by
    intro v mandatory hF
    have : ∃ t, Meant A (fitsAt E A x.direction v) x.fromWay.toNat v x.toWay.toNat p.1 t := by
      unfold ForbidsAt at hF
      split at hF
      · obtain ⟨t0, h1, _⟩ := hF; exact ⟨t0, h1⟩
      · exact ⟨_, hF⟩
    obtain ⟨t, h1, h2, _⟩ := this
    exact ⟨(enters_node h h1).1, (enters_node h h1).2.1, (leaves_node h h2).2.1⟩
  unfold Forbids viaOf
  by_cases hm : x.viaNode = BitVec.allOnes 64
  · rw [if_pos hm]
    simp only [decide_eq_true_eq]
    constructor
    · rintro ⟨y, hy, hF | ⟨z, v, hz, hv, hzv, hF⟩⟩
      · obtain ⟨_, h2, h3⟩ := hF
        rw [hy.category] at h2
        rw [if_pos h2]
        exact h3
      · have hyv : y.viaNode = invalidId := by
          rcases hy.via with ⟨_, h1⟩ | ⟨h1, _⟩
          · exact h1
          · exact absurd hm h1
        rcases hz with ⟨h1, _⟩ | ⟨_, h2, v', h3, rfl⟩
        · exact absurd hyv h1
        · rw [hy.category] at h2
          rw [if_neg h2]
          have hv' : at' Br v' = true := by
            obtain ⟨t, h4, _⟩ := h3; exact (leaves_node h h4).1
          have : v' = v := inj hv' hv hzv
          subst this
          simp only [hy.direction, hy.category] at hF
          exact ⟨v', h3, hF⟩
    · intro hF
      by_cases h2 : x.category = .mandatory ∧ x.fromWay.toNat = x.toWay.toNat
      · rw [if_pos h2] at hF
        have ⟨v, out, ⟨i, h3⟩, h4, _⟩ := hF
        have hw := (enters_node h h3).2.1
        refine ⟨⟨x.category, x.direction, E.locW x.fromWay.toNat, invalidId, E.locW x.toWay.toNat⟩, ⟨rfl, rfl, ⟨hw, ?_, rfl, rfl⟩, Or.inl ⟨hm, rfl⟩⟩,
          Or.inl ⟨rfl, h2, hF⟩⟩
        rw [← h2.2]; exact hw
      · rw [if_neg h2] at hF
        obtain ⟨v, h3, h4⟩ := hF
        obtain ⟨m1, m2, m3⟩ := marked h4
        refine ⟨⟨x.category, x.direction, E.locW x.fromWay.toNat, invalidId, E.locW x.toWay.toNat⟩, ⟨rfl, rfl, ⟨m2, m3, rfl, rfl⟩, Or.inl ⟨hm, rfl⟩⟩,
          Or.inr ⟨_, v, Or.inr ⟨rfl, h2, v, h3, rfl⟩, m1, rfl, h4⟩⟩
  · rw [if_neg hm]
    simp only
    constructor
    · rintro ⟨y, hy, hF⟩
      obtain ⟨h1, h2⟩ : at' Br x.viaNode.toNat = true ∧ y.viaNode = E.locR x.viaNode.toNat := by
        rcases hy.via with ⟨h1, _⟩ | ⟨_, h1⟩
        · exact absurd h1 hm
        · exact h1
      have hyv : y.viaNode ≠ invalidId := by rw [h2]; exact ne h1
      rcases hF with ⟨h3, _⟩ | ⟨z, v, hz, hv, hzv, hF⟩
      · exact absurd h3 hyv
      · rcases hz with ⟨_, rfl⟩ | ⟨h3, _⟩
        · have : x.viaNode.toNat = v := inj h1 hv (by rw [← h2, hzv])
          subst this
          rw [hy.direction, hy.category] at hF
          exact hF
        · exact absurd h3 hyv
    · intro hF
      obtain ⟨m1, m2, m3⟩ := marked hF
      refine ⟨⟨x.category, x.direction, E.locW x.fromWay.toNat, E.locR x.viaNode.toNat, E.locW x.toWay.toNat⟩, ⟨rfl, rfl, ⟨m2, m3, rfl, rfl⟩, Or.inr ⟨hm, m1, rfl⟩⟩,
          Or.inr ⟨_, x.viaNode.toNat, Or.inl ⟨ne m1, rfl⟩, m1, rfl, hF⟩⟩

theorem forbidden_lt (h : TurnsOk E mp Bm Br Bw A r tail) {inc : Nat → Nat → Nat} (hi : Chooses A inc) {fits : Nat → Nat → Nat → Prop} {mand : Bool}
    {w w' f t : Nat} {via : Option Nat} (hF : Forbids A fits inc mand w via w' f t) : f < A.length ∧ t < A.length := by
  have hB : ∀ {v t}, Begins A v t → t < A.length := by
    rintro v t ⟨a, ha, _⟩
    exact (List.getElem?_eq_some_iff.1 ha).1
  have hAt : ∀ {v}, ForbidsAt A (fits v) mand w v w' f t → f < A.length ∧ t < A.length := by
    intro v hF
    unfold ForbidsAt at hF
    split at hF
    · obtain ⟨t0, h1, h2, _⟩ := hF
      exact ⟨(enters_node h h1.1).2.2, hB h2⟩
    · exact ⟨(enters_node h hF.1).2.2, (leaves_node h hF.2.1).2.2⟩
  unfold Forbids at hF
  split at hF
  · exact hAt hF
  · split at hF
    · obtain ⟨v, out, h1, _, h3, h4, _⟩ := hF
      subst h3
      exact ⟨(enters_node h (hi w v h1)).2.2, hB h4⟩
    · obtain ⟨v, _, h1⟩ := hF
      exact hAt h1

theorem forbiddenTurns_ok (h : TurnsOk E mp Bm Br Bw A r tail) {stdSort : SortFn} (hs : StdSort stdSort) (junk : Nat → Word) {D : Nat}
    (hD : ∀ v, A.countP (fun a => decide (a.tail = v)) ≤ D) {rs : List TurnRestriction} (hl : rs.length * (A.length * D + D + 1) + 511 < u64)
    (hr : r.forbiddenFrom = [] ∧ r.forbiddenTo = []) :
    ∃ (Q : List (Nat × Nat)) (inc : Nat → Nat → Nat), forbiddenTurns stdSort junk mp r tail rs = some { r with forbiddenFrom := Q.map (·.1), forbiddenTo := Q.map (·.2) } ∧
      Chooses A inc ∧ Q.Pairwise lexLt ∧ ∀ p, p ∈ Q ↔ ∃ x ∈ rs, Forbids A (fitsAt E A x.direction) inc (decide (x.category = .mandatory))
        x.fromWay.toNat (viaOf x) x.toWay.toNat p.1 p.2 := by
  obtain ⟨byWay, e1, hW⟩ := groupBy_ok hs h.ways_lt
  by_cases hrs : rs = []
  · refine ⟨[], chosen E r byWay, ?_, chosen_ok h hW, List.Pairwise.nil, by simp [hrs]⟩
    unfold forbiddenTurns
    rw [if_pos hrs]
    obtain ⟨h1, h2⟩ := hr
    cases r
    simp only at h1 h2
    subst h1; subst h2
    rfl
  have hu : u32 = 4294967296 := rfl
  have hwc : mp.way.base.localIdCount % u32 = Bw.count true := by
    rw [h.env.w.base.localIdCount]
    exact Nat.mod_eq_of_lt (by have := h.env.cw; have := invalid_lt; omega)
  have hfo : r.firstOut.length = Br.count true + 1 := by
    have := h.graph.firstOut
    rw [← h.graph.tail] at this
    obtain ⟨idx, e, hl, _⟩ := invertVector_spec h.sorted h.tail_lt
    rw [this] at e; cases e; exact hl
  obtain ⟨byHead, e2, hH⟩ := groupBy_ok hs h.head_lt
  obtain ⟨ys, e3, h3, l3⟩ := localRestrictions_ok h.env rs
  obtain ⟨F, O, e4, hF, hO, l4⟩ := repair_loop h hD hW (l := ys) (by
    intro y hy
    obtain ⟨x, _, hx⟩ := (h3 y).1 hy
    exact ⟨_, _, hx.ways⟩)
  -- the remaining restrictions have via nodes
  have hvia : ∀ z ∈ O, ∃ x ∈ rs, ∃ y, LocalOf E Br Bw x y ∧ RepairKeeps E A y x.fromWay.toNat x.toWay.toNat z ∧
      WaysAre E Bw z x.fromWay.toNat x.toWay.toNat ∧ ∃ v, at' Br v = true ∧ z.viaNode = E.locR v := by
    intro z hz
    obtain ⟨y, hy, w, w', hww, hk⟩ := (hO z).1 hz
    obtain ⟨x, hx, hxy⟩ := (h3 y).1 hy
    have hw1 : w = x.fromWay.toNat := (locW_inj h hww.markedFrom hxy.ways.markedFrom).1 (by rw [← hww.fromWay, hxy.ways.fromWay])
    have hw2 : w' = x.toWay.toNat := (locW_inj h hww.markedTo hxy.ways.markedTo).1 (by rw [← hww.toWay, hxy.ways.toWay])
    subst hw1; subst hw2
    refine ⟨x, hx, y, hxy, hk, ?_⟩
    rcases hk with ⟨h4, rfl⟩ | ⟨_, _, v, h4, rfl⟩
    · refine ⟨hww, ?_⟩
      rcases hxy.via with ⟨_, h5⟩ | ⟨_, h5, h6⟩
      · exact absurd h5 h4
      · exact ⟨_, h5, h6⟩
    · refine ⟨⟨hww.markedFrom, hww.markedTo, hww.fromWay, hww.toWay⟩, v, ?_, rfl⟩
      obtain ⟨t, h5, _⟩ := h4
      exact (leaves_node h h5).1
  obtain ⟨ds, h5, e5⟩ := forEach_collect (l := O) (f := forbidStep r (turnGraph r tail) byHead)
    (P := fun z d => (∀ p, p ∈ d ↔ ∃ w w' v, WaysAre E Bw z w w' ∧ at' Br v = true ∧ z.viaNode = E.locR v ∧
      ForbidsAt A (fitsAt E A z.direction v) (decide (z.category = .mandatory)) w v w' p.1 p.2) ∧ d.length ≤ D + 1) (by
      intro z hz
      obtain ⟨x, _, y, _, _, hzw, v, hv, hzv⟩ := hvia z hz
      obtain ⟨d, h6, h7, h8⟩ := forbidStep_ok h hD hH hzw hv hzv
      refine ⟨d, ⟨fun p => ?_, h8⟩, h6⟩
      rw [h7]
      constructor
      · intro h9; exact ⟨_, _, v, hzw, hv, hzv, h9⟩
      · rintro ⟨w, w', v', h9, h10, h11, h12⟩
        have hw1 : w = x.fromWay.toNat := (locW_inj h h9.markedFrom hzw.markedFrom).1 (by rw [← h9.fromWay, hzw.fromWay])
        have hw2 : w' = x.toWay.toNat := (locW_inj h h9.markedTo hzw.markedTo).1 (by rw [← h9.toWay, hzw.toWay])
        have hv' : v' = v := by
          refine rk_inj h10 hv ?_
          rw [← h.env.lr, ← h11, hzv]
        subst hw1; subst hw2; subst hv'
        exact h12)
  have hmem : ∀ p, p ∈ F ++ ds.flatten ↔ ∃ x ∈ rs, Forbids A (fitsAt E A x.direction) (chosen E r byWay) (decide (x.category = .mandatory))
        x.fromWay.toNat (viaOf x) x.toWay.toNat p.1 p.2 := by
    intro p
    rw [List.mem_append, hF, flatten_mem (h5.imp fun _ _ h => h.1)]
    constructor
    · rintro (⟨y, hy, w, w', hww, hf⟩ | ⟨z, hz, w, w', v, hww, hv, hzv, hf⟩)
      · obtain ⟨x, hx, hxy⟩ := (h3 y).1 hy
        have hw1 : w = x.fromWay.toNat := (locW_inj h hww.markedFrom hxy.ways.markedFrom).1 (by rw [← hww.fromWay, hxy.ways.fromWay])
        have hw2 : w' = x.toWay.toNat := (locW_inj h hww.markedTo hxy.ways.markedTo).1 (by rw [← hww.toWay, hxy.ways.toWay])
        subst hw1; subst hw2
        exact ⟨x, hx, (forbidden_iff h x p).1 ⟨y, hxy, Or.inl hf⟩⟩
      · obtain ⟨x, hx, y, hxy, hk, hzw, _⟩ := hvia z hz
        have hw1 : w = x.fromWay.toNat := (locW_inj h hww.markedFrom hzw.markedFrom).1 (by rw [← hww.fromWay, hzw.fromWay])
        have hw2 : w' = x.toWay.toNat := (locW_inj h hww.markedTo hzw.markedTo).1 (by rw [← hww.toWay, hzw.toWay])
        subst hw1; subst hw2
        exact ⟨x, hx, (forbidden_iff h x p).1 ⟨y, hxy, Or.inr ⟨z, v, hk, hv, hzv, hf⟩⟩⟩
    · rintro ⟨x, hx, hf⟩
      obtain ⟨y, hxy, hf | ⟨z, v, hk, hv, hzv, hf⟩⟩ := (forbidden_iff h x p).2 hf
      · exact Or.inl ⟨y, (h3 y).2 ⟨x, hx, hxy⟩, _, _, hxy.ways, hf⟩
      · have hz : z ∈ O := (hO z).2 ⟨y, (h3 y).2 ⟨x, hx, hxy⟩, _, _, hxy.ways, hk⟩
        refine Or.inr ⟨z, hz, _, _, v, ?_, hv, hzv, hf⟩
        rcases hk with ⟨_, rfl⟩ | ⟨_, _, _, _, rfl⟩
        · exact hxy.ways
        · exact ⟨hxy.ways.markedFrom, hxy.ways.markedTo, hxy.ways.fromWay, hxy.ways.toWay⟩
  have l5 := flatten_length (h5.imp fun _ _ h => h.2)
  have hlen : (F ++ ds.flatten).length + 511 < u64 := by
    rw [List.length_append]
    have a1 : ys.length * (A.length * D + 1) ≤ rs.length * (A.length * D + 1) := Nat.mul_le_mul_right _ l3
    have a2 : O.length ≤ ys.length := by
      have : O.length * (A.length * D + 1) ≤ ys.length * (A.length * D + 1) := by omega
      exact Nat.le_of_mul_le_mul_right this (by omega)
    have a3 : O.length * (D + 1) = O.length * D + O.length := by rw [Nat.mul_add, Nat.mul_one]
    have a4 : O.length * D ≤ rs.length * D := Nat.mul_le_mul_right _ (by omega)
    have a5 : O.length ≤ O.length * (A.length * D + 1) := Nat.le_mul_of_pos_right _ (by omega)
    have a6 : rs.length * (A.length * D + D + 1) = rs.length * (A.length * D + 1) + rs.length * D := by
      rw [← Nat.mul_add]; congr 1; omega
    omega
  obtain ⟨Q, e6, h6, h7⟩ := sortTurns_ok (junk := junk) (n := A.length) (fb := F ++ ds.flatten) (by
    intro p hp
    obtain ⟨x, _, hf⟩ := (hmem p).1 hp
    exact forbidden_lt h (chosen_ok h hW) hf) hlen
  refine ⟨Q, chosen E r byWay, ?_, chosen_ok h hW, h6, fun p => by rw [h7, hmem]⟩
  have erep : repair stdSort (turnGraph r tail) (Bw.count true) ys = some ⟨List.replicate (Br.count true) false, List.replicate (Br.count true) invalidId, F, O⟩ := by
    unfold repair
    have : (turnGraph r tail).way = r.way := rfl
    rw [this, e1]
    simp only [Option.bind_eq_bind, Option.bind_some]
    rw [show (turnGraph r tail).firstOut.length - 1 = Br.count true by simp only [turnGraph]; omega, e4]
    simp
  unfold forbiddenTurns
  rw [if_neg hrs, hwc, hfo, Nat.add_sub_cancel]
  change (localRestrictions mp rs).bind (fun l => (repair stdSort (turnGraph r tail) (Bw.count true) l).bind fun s => _) = _
  rw [e3, Option.bind_some, erep, Option.bind_some, e2]
  change (forEach O F (forbidStep r (turnGraph r tail) byHead)).bind _ = _
  rw [e5, Option.bind_some, h.headLength, e6]
  rfl

end

end RK.Osm
