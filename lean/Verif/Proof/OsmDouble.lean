import Verif.Spec.OsmDouble
import Verif.Proof.OsmFloat
import Verif.Proof.OsmFile
/-! # The decoder with `double`: the callbacks are those of the exact decoder, with coordinates close to the exact ones -/
namespace RK.Osm
open _root_.Spec (Field)
open Ieee

/-! ### Numbers -/

theorem rel_mul {a A b B u v : ℝ} (hv : 0 ≤ v) (h1 : |a - A| ≤ |A| * u) (h2 : |b - B| ≤ |B| * v) : |a * b - A * B| ≤ |A * B| * (u + v + u * v) := by
  have e : a * b - A * B = (a - A) * B + A * (b - B) + (a - A) * (b - B) := by ring
  rw [e, abs_mul]
  have t1 := abs_add_le ((a - A) * B + A * (b - B)) ((a - A) * (b - B))
  have t2 := abs_add_le ((a - A) * B) (A * (b - B))
  rw [abs_mul, abs_mul] at t2
  rw [abs_mul (a - A)] at t1
  have m1 := mul_le_mul_of_nonneg_right h1 (abs_nonneg B)
  have m2 := mul_le_mul_of_nonneg_left h2 (abs_nonneg A)
  have m3 := mul_le_mul h1 h2 (abs_nonneg _) ((abs_nonneg _).trans h1)
  nlinarith

theorem rel_dbl {a A u : ℝ} (h : |a - A| ≤ |A| * u) : |dbl a - A| ≤ |A| * (u + (1 + u) / 9007199254740992) := by
  have h1 := abs_sub_abs_le_abs_sub a A
  have h2 := dbl_rel a (|A| * (1 + u)) (by linarith)
  have h3 := abs_sub_le (dbl a) a A
  have e : |A| * (u + (1 + u) / 9007199254740992) = |A| * (1 + u) / 9007199254740992 + |A| * u := by ring
  rw [e]; linarith

theorem rel_self (A : ℝ) : |dbl A - A| ≤ |A| * (1 / 9007199254740992) := by
  have := dbl_rel A _ (le_refl _)
  rwa [mul_one_div]

theorem scaledDouble_zero (contract : Bool) (g : ℝ) (k : Int) : scaledDouble contract 0 g k = dbl (g * dbl k) := by
  unfold scaledDouble
  split
  · rw [zero_add]
  · rw [zero_add]; exact rnd_rnd (by norm_num) _

/-- The error of a product of the granularity and a number. -/
theorem scaled_error (contract : Bool) {b : Block} (k : Int) :
    |scaledDouble contract 0 b.granularityDouble k - ((b.granularity * k : Int) : ℝ) / 1000000000| ≤
      |((b.granularity * k : Int) : ℝ) / 1000000000| * (5.2 / 9007199254740992) := by
  rw [scaledDouble_zero]
  unfold Block.granularityDouble
  have h1 := rel_mul (by norm_num) (rel_self 0.000000001) (rel_self (b.granularity : ℝ))
  have h2 := rel_dbl h1
  have h3 := rel_dbl (rel_mul (by norm_num) h2 (rel_self (k : ℝ)))
  rw [show 0.000000001 * (b.granularity : ℝ) * (k : ℝ) = ((b.granularity * k : Int) : ℝ) / 1000000000 by push_cast; ring] at h3
  refine h3.trans (mul_le_mul_of_nonneg_left ?_ (abs_nonneg _))
  norm_num

/-! ### The relation -/

/-- The coordinates are on the globe. -/
def SmallCall : OsmEvent → Prop
  | .node _ lat lon _ => |lat| ≤ 180000000000 ∧ |lon| ≤ 180000000000
  | _ => True

/-- Close to a number of nanodegrees: an error for each of `N` nodes. -/
def NearTo (N : Nat) (x : ℝ) (n : Int) : Prop := Within (N * 0.00000000000023) x n

/-- The coordinates are close to the exact ones. -/
def NearCall (N : Nat) : OsmEvent → DoubleEvent → Prop
  | .node _ lat lon _, .node _ lat' lon' _ => NearTo N lat' lat ∧ NearTo N lon' lon
  | _, _ => True

/-- The same calls and the same end; and under the condition `q`, coordinates close to the exact ones. -/
structure Sim (N : Nat) (q : Prop) (o : Out) (d : DoubleOut) : Prop where
  result : d.2 = o.2
  calls : List.Forall₂ SameCall o.1 d.1
  near : q → (∀ e ∈ o.1, SmallCall e) → List.Forall₂ (NearCall N) o.1 d.1

variable {N : Nat}

theorem sim_mono {q q' : Prop} {o : Out} {d : DoubleOut} (h : Sim N q o d) (hq : q' → q) : Sim N q' o d := ⟨h.1, h.2, fun a => h.3 (hq a)⟩

theorem sim_nil {q : Prop} (r : Res (TagMap (List Byte))) : Sim N q ([], r) ([], r) := ⟨rfl, .nil, fun _ _ => .nil⟩

theorem sim_step {q : Prop} {o : Out} {d : DoubleOut} {f : TagMap (List Byte) → Out} {f' : TagMap (List Byte) → DoubleOut} (h : Sim N q o d)
    (hf : ∀ m, Sim N q (f m) (f' m)) : Sim N q (o.step f) (d.step f') := by
  obtain ⟨h1, h2, h3⟩ := h
  unfold Out.step DoubleOut.step
  rw [h1]
  cases e : o.2 with
  | ok m =>
    obtain ⟨g1, g2, g3⟩ := hf m
    exact ⟨g1, List.rel_append h2 g2, fun hq hs => List.rel_append (h3 hq fun e he => hs e (List.mem_append_left _ he))
      (g3 hq fun e he => hs e (List.mem_append_right _ he))⟩
  | error => exact ⟨rfl, h2, h3⟩
  | ub => exact ⟨rfl, h2, h3⟩

theorem sim_after {α : Type} {q : Prop} {r : Res α} {f : α → Out} {f' : α → DoubleOut} (hf : ∀ a, r = .ok a → Sim N q (f a) (f' a)) :
    Sim N q (after r f) (afterDouble r f') := by
  unfold after afterDouble
  cases r with
  | ok a => exact hf a rfl
  | error => exact sim_nil _
  | ub => exact sim_nil _

/-- Calls for ways and relations. -/
theorem sim_other {q : Prop} {o : Out} (h : ∀ e ∈ o.1, ∀ id lat lon t, e ≠ .node id lat lon t) : Sim N q o o.toDouble := by
  refine ⟨rfl, ?_, fun _ _ => ?_⟩
  · unfold Out.toDouble
    rw [List.forall₂_map_right_iff, List.forall₂_same]
    intro e he
    cases e with
    | node id lat lon t => exact absurd rfl (h _ he id lat lon t)
    | way => rfl
    | relation => rfl
  · unfold Out.toDouble
    rw [List.forall₂_map_right_iff, List.forall₂_same]
    intro e he
    cases e <;> trivial

/-! ### Lengths -/

theorem varint_shorter {l rest : List Byte} {x : Word} (h : decodeVarint l = .ok (x, rest)) : rest.length + 1 ≤ l.length := by
  obtain ⟨l', rfl, _, _, _, h⟩ := decodeVarint_inv h
  have := List.length_pos_iff.2 h
  rw [List.length_append]; omega

/-- The number of bytes of strings in a message. -/
def stringBytes : List Field → Nat
  | [] => 0
  | .bytes _ c :: fs => c.length + stringBytes fs
  | _ :: fs => stringBytes fs

theorem field_bytes {l rest : List Byte} {f : Field} (h : decodeField l = .ok (f, rest)) : stringBytes [f] + rest.length ≤ l.length := by
  obtain ⟨l', rfl, h', _⟩ := decodeField_inv h
  clear h
  rw [List.length_append]
  cases f with
  | bytes i c =>
    obtain ⟨k, v, rfl, _, _⟩ := h'
    simp only [stringBytes, List.length_append]; omega
  | _ => simp only [stringBytes]; omega

theorem stringBytes_cons (f : Field) (fs : List Field) : stringBytes (f :: fs) = stringBytes [f] + stringBytes fs := by
  cases f <;> simp [stringBytes]

theorem message_bytes : ∀ (fuel : Nat) (l : List Byte), stringBytes (decodeMessage fuel l).1 ≤ l.length
  | 0, l => by simp [decodeMessage, stringBytes]
  | fuel + 1, l => by
    unfold decodeMessage
    split
    · simp [stringBytes]
    · cases e : decodeField l with
      | ok p =>
        obtain ⟨f, rest⟩ := p
        have h1 := field_bytes e
        have h2 := message_bytes fuel rest
        simp only
        rw [stringBytes_cons]; omega
      | error => simp [stringBytes]
      | ub => simp [stringBytes]

theorem message_eq {l : List Byte} {fs : List Field} (h : message l = .ok fs) : (decodeMessage (l.length + 1) l).1 = fs := by
  unfold message at h
  split at h
  · rename_i e; rw [e]; cases h; rfl
  · cases h
  · cases h

theorem bytes_le {i : Nat} {c : List Byte} : ∀ {fs : List Field}, Field.bytes i c ∈ fs → c.length ≤ stringBytes fs
  | f :: fs, h => by
    rw [stringBytes_cons]
    rcases List.mem_cons.1 h with rfl | h
    · simp only [stringBytes]; omega
    · have := bytes_le h; omega

theorem three_le {i j k : Nat} (hij : i ≠ j) (hik : i ≠ k) (hjk : j ≠ k) : ∀ (fs : List Field),
    ((Spec.strs i fs).flatten.length + (Spec.strs j fs).flatten.length + (Spec.strs k fs).flatten.length) ≤ stringBytes fs
  | [] => by simp [Spec.strs]
  | f :: fs => by
    have ih := three_le hij hik hjk fs
    unfold Spec.strs at ih ⊢
    cases f with
    | bytes x c =>
      simp only [List.filterMap_cons, stringBytes]
      by_cases h1 : x = i
      · subst h1
        simp only [if_true, if_neg hij, if_neg hik, List.flatten_cons, List.length_append]; omega
      · by_cases h2 : x = j
        · subst h2
          simp only [if_true, if_neg h1, if_neg hjk, List.flatten_cons, List.length_append]; omega
        · by_cases h3 : x = k
          · subst h3
            simp only [if_true, if_neg h1, if_neg h2, List.flatten_cons, List.length_append]; omega
          · simp only [if_neg h1, if_neg h2, if_neg h3]; omega
    | _ => simp only [List.filterMap_cons, stringBytes]; omega

theorem last_le {i : Nat} {fs : List Field} {c : List Byte} (h : lastStr i fs = some c) : c.length ≤ (Spec.strs i fs).flatten.length := by
  rw [lastStr_eq] at h
  obtain ⟨l, e⟩ := List.getLast?_eq_some_iff.1 h
  rw [e]; simp

/-! ### Nodes -/

theorem near_zero : NearTo N 0 0 := by unfold NearTo Within; norm_num

theorem near_scaled (hN : 1 ≤ N) (contract : Bool) {b : Block} {k : Int} (h : |(b.granularity * k : Int)| ≤ 180000000000) :
    NearTo N (scaledDouble contract 0 b.granularityDouble k) (b.granularity * k) := by
  have h1 := scaled_error contract (b := b) k
  have h2 : |((b.granularity * k : Int) : ℝ) / 1000000000| ≤ 180 := by
    rw [abs_div, abs_of_pos (show (0 : ℝ) < 1000000000 by norm_num), div_le_iff₀ (by norm_num)]
    have : ((|(b.granularity * k : Int)| : Int) : ℝ) ≤ 180000000000 := by exact_mod_cast h
    rw [Int.cast_abs] at this
    linarith
  have hN' : (1 : ℝ) ≤ N := by exact_mod_cast hN
  unfold NearTo Within
  generalize ((b.granularity * k : Int) : ℝ) / 1000000000 = t at h1 h2 ⊢
  norm_num at h1 ⊢
  linarith

/-- Blocks without offsets. -/
def NoOffset (b : Block) : Prop := b.offsetLat = 0 ∧ b.offsetLon = 0

theorem lonOffset_zero {b : Block} (h : NoOffset b) : b.lonOffsetDouble = 0 ∧ b.lonOffset = 0 := by
  unfold Block.lonOffsetDouble Block.lonOffset
  rw [h.1]; simp

theorem latOffset_zero {b : Block} (h : NoOffset b) : b.latOffsetDouble = 0 ∧ b.latOffset = 0 := by
  unfold Block.latOffsetDouble Block.latOffset
  rw [h.2]; simp

/-- The last coordinate that is assigned. -/
theorem fold_near (hN : 1 ≤ N) (contract : Bool) (b : Block) (key : Nat) : ∀ (fs : List Field) (x : ℝ) (n : Int), (|n| ≤ 180000000000 → NearTo N x n) →
    |(fs.foldl (fun a f => match f with
      | .varint i x => if i = key then 0 + b.granularity * zigzagDecode (BitVec.ofNat 64 x) else a
      | _ => a) n)| ≤ 180000000000 →
    NearTo N (fs.foldl (fun a f => match f with
      | .varint i x => if i = key then scaledDouble contract 0 b.granularityDouble (zigzagDecode (BitVec.ofNat 64 x)) else a
      | _ => a) x) (fs.foldl (fun a f => match f with
      | .varint i x => if i = key then 0 + b.granularity * zigzagDecode (BitVec.ofNat 64 x) else a
      | _ => a) n)
  | [], x, n, h, hn => h hn
  | f :: fs, x, n, h, hn => by
    simp only [List.foldl_cons] at hn ⊢
    refine fold_near hN contract b key fs _ _ ?_ hn
    cases f with
    | varint i y =>
      simp only
      split
      · rw [zero_add]; exact near_scaled hN contract
      · exact h
    | _ => exact h

theorem sparseNode_sim (contract : Bool) (b : Block) (l : List Byte) (m : TagMap (List Byte)) :
    Sim N (1 ≤ N ∧ NoOffset b) (sparseNode b l m) (sparseNodeDouble contract b l m) := by
  unfold sparseNode sparseNodeDouble
  cases e : message l with
  | error => exact sim_nil _
  | ub => exact sim_nil _
  | ok fs =>
    simp only [Res.ok_bind]
    by_cases hid : lastNum 1 (2 ^ 64 - 1) fs = 2 ^ 64 - 1
    · rw [if_pos hid, if_pos hid]; exact sim_nil _
    · rw [if_neg hid, if_neg hid]
      cases pairLoop ((mem (lastStr 2 fs)).length + 1) (mem (lastStr 2 fs)) (mem (lastStr 3 fs)) with
      | error => exact sim_nil _
      | ub => exact sim_nil _
      | ok kv =>
        simp only [Res.ok_bind]
        cases buildTags b.strings kv m with
        | error => exact sim_nil _
        | ub => exact sim_nil _
        | ok m =>
          simp only [Res.ok_bind, after, afterDouble]
          refine ⟨rfl, .cons ⟨rfl, rfl⟩ .nil, fun hN0 hs => .cons ?_ .nil⟩
          obtain ⟨hN, h0⟩ := hN0
          have hs := hs _ List.mem_cons_self
          obtain ⟨a1, a2⟩ := lonOffset_zero h0
          obtain ⟨b1, b2⟩ := latOffset_zero h0
          simp only [SmallCall, a2, b2] at hs
          simp only [NearCall, a1, a2, b1, b2]
          exact ⟨fold_near hN contract b 19 fs 0 0 (fun _ => near_zero) hs.1, fold_near hN contract b 20 fs 0 0 (fun _ => near_zero) hs.2⟩

/-- The error after `k` nodes. -/
def ErrorAt (k : Nat) (x : ℝ) (n : Int) : Prop := |n| ≤ 180000000000 ∧ |x - n / 1000000000| ≤ k * 0.00000000000023

theorem degrees_le {n : Int} {B : ℝ} (h : |n| ≤ 180000000000) (hB : B = 180) : |(n / 1000000000 : ℝ)| ≤ B := by
  rw [hB, abs_div, abs_of_pos (show (0 : ℝ) < 1000000000 by norm_num), div_le_iff₀ (by norm_num)]
  have : ((|n| : Int) : ℝ) ≤ 180000000000 := by exact_mod_cast h
  rw [Int.cast_abs] at this
  linarith

/-- One addition. -/
theorem error_step (contract : Bool) {b : Block} {k : Nat} {x : ℝ} {n y : Int} (hk : k + 1 ≤ 11184811) (h : ErrorAt k x n)
    (hn : |n + b.granularity * y| ≤ 180000000000) : ErrorAt (k + 1) (dbl (x + scaledDouble contract 0 b.granularityDouble y)) (n + b.granularity * y) := by
  obtain ⟨h1, h2⟩ := h
  refine ⟨hn, ?_⟩
  have e := scaled_error contract (b := b) y
  have hV := degrees_le hn rfl
  have hP := degrees_le h1 rfl
  generalize scaledDouble contract 0 b.granularityDouble y = w at e ⊢
  have eV : ((n + b.granularity * y : Int) : ℝ) / 1000000000 = n / 1000000000 + ((b.granularity * y : Int) : ℝ) / 1000000000 := by push_cast; ring
  rw [eV] at hV ⊢
  generalize (n / 1000000000 : ℝ) = P at h2 hP hV ⊢
  generalize ((b.granularity * y : Int) : ℝ) / 1000000000 = D at e hV ⊢
  have hkr : (k : ℝ) + 1 ≤ 11184811 := by exact_mod_cast hk
  have hd : |D| ≤ 360 := by
    have := abs_sub_le (P + D) 0 P
    rw [sub_zero, zero_sub, abs_neg, add_sub_cancel_left] at this
    linarith
  have hw : |x + w - (P + D)| ≤ k * 0.00000000000023 + 360 * 5.2 / 9007199254740992 := by
    have := abs_add_le (x - P) (w - D)
    rw [show x - P + (w - D) = x + w - (P + D) by ring] at this
    norm_num at e h2 this ⊢
    linarith
  have hb : |x + w| ≤ 181 := by
    have := abs_sub_abs_le_abs_sub (x + w) (P + D)
    norm_num at hw ⊢
    linarith
  have c := dbl_rel _ _ hb
  have := abs_sub_le (dbl (x + w)) (x + w) (P + D)
  push_cast
  norm_num at hw c this ⊢
  linarith

theorem error_near {k : Nat} {x : ℝ} {n : Int} (hk : k ≤ N) (h : ErrorAt k x n) : NearTo N x n := by
  refine h.2.trans (mul_le_mul_of_nonneg_right ?_ (by norm_num))
  exact_mod_cast hk

/-- The states of the loop for dense nodes have the same content, apart from coordinates. -/
structure SameState (s : DenseState) (t : DoubleState) : Prop where
  ids : t.ids = s.ids
  lats : t.lats = s.lats
  lons : t.lons = s.lons
  kvs : t.kvs = s.kvs
  id : t.id = s.id
  tags : t.tags = s.tags

/-- After `k` nodes there are enough bytes left, and the errors are small. -/
def SmallState (N k : Nat) (s : DenseState) (t : DoubleState) : Prop :=
  3 * k + s.ids.length + s.lats.length + s.lons.length < 3 * N ∧ N ≤ 11184811 ∧ ErrorAt k t.lat s.lat ∧ ErrorAt k t.lon s.lon

/-- Relation for results. -/
def RelRes {α β : Type} (R : α → β → Prop) : Res α → Res β → Prop
  | .ok a, .ok b => R a b
  | .error, .error => True
  | .ub, .ub => True
  | _, _ => False

theorem densePass_sim (contract : Bool) (b : Block) {s : DenseState} {t : DoubleState} (h : SameState s t) :
    RelRes (fun s' t' => SameState s' t' ∧ (NoOffset b → ∀ k, SmallState N k s t → |s'.lat| ≤ 180000000000 → |s'.lon| ≤ 180000000000 →
      SmallState N (k + 1) s' t')) (densePass b s) (densePassDouble contract b t) := by
  unfold densePass densePassDouble
  rw [h.ids, h.lats, h.lons, h.kvs, h.id, h.tags]
  cases e1 : decodeVarint s.ids with
  | error => trivial
  | ub => trivial
  | ok p =>
    obtain ⟨x, ids⟩ := p
    simp only [Res.ok_bind]
    cases e2 : decodeVarint s.lats with
    | error => trivial
    | ub => trivial
    | ok p =>
      obtain ⟨y, lats⟩ := p
      simp only [Res.ok_bind]
      cases e3 : decodeVarint s.lons with
      | error => trivial
      | ub => trivial
      | ok p =>
        obtain ⟨z, lons⟩ := p
        simp only [Res.ok_bind]
        have key : NoOffset b → ∀ k, SmallState N k s t → ∀ kvs kvs' id id' tags tags',
            |s.lat + (b.lonOffset + b.granularity * zigzagDecode y)| ≤ 180000000000 → |s.lon + (b.lonOffset + b.granularity * zigzagDecode z)| ≤ 180000000000 →
            SmallState N (k + 1) ⟨ids, lats, lons, kvs, id, s.lat + (b.lonOffset + b.granularity * zigzagDecode y),
                s.lon + (b.lonOffset + b.granularity * zigzagDecode z), tags⟩
              ⟨ids, lats, lons, kvs', id', dbl (t.lat + scaledDouble contract b.lonOffsetDouble b.granularityDouble (zigzagDecode y)),
                dbl (t.lon + scaledDouble contract b.lonOffsetDouble b.granularityDouble (zigzagDecode z)), tags'⟩ := by
          intro h0 k hk kvs kvs' id id' tags tags' a1 a2
          obtain ⟨k1, kN, k2, k3⟩ := hk
          obtain ⟨z1, z2⟩ := lonOffset_zero h0
          have l1 := varint_shorter e1
          have l2 := varint_shorter e2
          have l3 := varint_shorter e3
          rw [z2, zero_add] at a1 a2
          simp only [SmallState]
          rw [z1, z2, zero_add, zero_add]
          exact ⟨by omega, kN, error_step contract (by omega) k2 a1, error_step contract (by omega) k3 a2⟩
        cases s.kvs with
        | none => exact ⟨⟨rfl, rfl, rfl, rfl, rfl, rfl⟩, fun h0 k hk a1 a2 => key h0 k hk _ _ _ _ _ _ a1 a2⟩
        | some kvs =>
          simp only
          cases denseTags (kvs.length + 1) kvs with
          | error => trivial
          | ub => trivial
          | ok p =>
            obtain ⟨kv, kvs⟩ := p
            simp only [Res.ok_bind]
            cases buildTags b.strings kv s.tags with
            | error => trivial
            | ub => trivial
            | ok tags => exact ⟨⟨rfl, rfl, rfl, rfl, rfl, rfl⟩, fun h0 k hk a1 a2 => key h0 k hk _ _ _ _ _ _ a1 a2⟩

theorem denseLoop_sim (contract : Bool) (b : Block) : ∀ (fuel : Nat) (s : DenseState) (t : DoubleState), SameState s t →
    Sim N (NoOffset b ∧ ∃ k, SmallState N k s t) (denseLoop b fuel s) (denseLoopDouble contract b fuel t)
  | 0, _, _, _ => sim_nil _
  | fuel + 1, s, t, h => by
    unfold denseLoop denseLoopDouble
    rw [h.ids, h.lats, h.lons, h.kvs, h.tags]
    by_cases h0 : s.ids ≠ []
    · rw [if_pos h0, if_pos h0]
      have hp := densePass_sim (N := N) contract b h
      cases e1 : densePass b s with
      | error =>
        cases e2 : densePassDouble contract b t with
        | error => exact sim_nil _
        | ub => rw [e1, e2] at hp; exact hp.elim
        | ok _ => rw [e1, e2] at hp; exact hp.elim
      | ub =>
        cases e2 : densePassDouble contract b t with
        | ub => exact sim_nil _
        | error => rw [e1, e2] at hp; exact hp.elim
        | ok _ => rw [e1, e2] at hp; exact hp.elim
      | ok s' =>
        cases e2 : densePassDouble contract b t with
        | error => rw [e1, e2] at hp; exact hp.elim
        | ub => rw [e1, e2] at hp; exact hp.elim
        | ok t' =>
          rw [e1, e2] at hp
          obtain ⟨g1, g2⟩ := hp
          have ih := denseLoop_sim contract b fuel s' t' g1
          simp only [after, afterDouble, Out.step, DoubleOut.step]
          refine ⟨ih.1, .cons ⟨g1.id, g1.tags⟩ ih.2, ?_⟩
          rintro ⟨hn, k, hk⟩ hs
          have hs0 : SmallCall (.node s'.id s'.lat s'.lon s'.tags) := hs _ (by simp)
          have hk' := g2 hn k hk hs0.1 hs0.2
          have hk2 : k + 1 ≤ N := by have := hk'.1; omega
          refine .cons ⟨error_near hk2 hk'.2.2.1, error_near hk2 hk'.2.2.2⟩ (ih.3 ⟨hn, _, hk'⟩ fun e he => hs e (by simp [he]))
    · rw [if_neg h0, if_neg h0]
      split
      · exact sim_nil _
      · exact sim_nil _

theorem denseNodes_sim (contract : Bool) (b : Block) (l : List Byte) (m : TagMap (List Byte)) :
    Sim N (NoOffset b ∧ l.length < 3 * N ∧ N ≤ 11184811) (denseNodes b l m) (denseNodesDouble contract b l m) := by
  unfold denseNodes denseNodesDouble
  cases e : message l with
  | error => exact sim_nil _
  | ub => exact sim_nil _
  | ok fs =>
    simp only [Res.ok_bind]
    cases e1 : lastStr 1 fs with
    | none => exact sim_nil _
    | some ids =>
      cases e2 : lastStr 8 fs with
      | none => exact sim_nil _
      | some lats =>
        cases e3 : lastStr 9 fs with
        | none => exact sim_nil _
        | some lons =>
          simp only
          cases m.clear with
          | none => exact sim_nil _
          | some m =>
            simp only [Res.ofOption_some, Res.ok_bind, after, afterDouble]
            refine sim_mono (denseLoop_sim contract b _ _ _ ⟨rfl, rfl, rfl, rfl, rfl, rfl⟩) ?_
            rintro ⟨h0, hl, hN⟩
            refine ⟨h0, 0, ?_, hN, ⟨by simp, by simp⟩, by simp, by simp⟩
            have h1 := message_bytes (l.length + 1) l
            rw [message_eq e] at h1
            have h2 := three_le (i := 1) (j := 8) (k := 9) (by decide) (by decide) (by decide) fs
            have h3 := last_le e1
            have h4 := last_le e2
            have h5 := last_le e3
            simp only
            omega

/-! ### Groups, blocks, streams -/

theorem way_calls {b : Block} {l : List Byte} {m : TagMap (List Byte)} : ∀ e ∈ (decodeWay b l m).1, ∀ id lat lon t, e ≠ .node id lat lon t := by
  unfold decodeWay
  cases message l with
  | error => simp [after]
  | ub => simp [after]
  | ok fs =>
    simp only [Res.ok_bind]
    split
    · simp [after]
    · cases pairLoop ((mem (lastStr 2 fs)).length + 1) (mem (lastStr 2 fs)) (mem (lastStr 3 fs)) with
      | error => simp [after]
      | ub => simp [after]
      | ok kv =>
        simp only [Res.ok_bind]
        cases buildTags b.strings kv m with
        | error => simp [after]
        | ub => simp [after]
        | ok m =>
          simp only [Res.ok_bind]
          cases nodeLoop ((mem (lastStr 8 fs)).length + 1) (mem (lastStr 8 fs)) 0 with
          | error => simp [after]
          | ub => simp [after]
          | ok _ => simp [after]

theorem relation_calls {b : Block} {l : List Byte} {m : TagMap (List Byte)} : ∀ e ∈ (decodeRelation b l m).1, ∀ id lat lon t, e ≠ .node id lat lon t := by
  unfold decodeRelation
  cases message l with
  | error => simp [after]
  | ub => simp [after]
  | ok fs =>
    simp only [Res.ok_bind]
    split
    · simp [after]
    · cases pairLoop ((mem (lastStr 2 fs)).length + 1) (mem (lastStr 2 fs)) (mem (lastStr 3 fs)) with
      | error => simp [after]
      | ub => simp [after]
      | ok kv =>
        simp only [Res.ok_bind]
        cases buildTags b.strings kv m with
        | error => simp [after]
        | ub => simp [after]
        | ok m =>
          simp only [Res.ok_bind]
          cases memberLoop b.strings ((mem (lastStr 9 fs)).length + 1) (mem (lastStr 9 fs)) (mem (lastStr 8 fs)) (mem (lastStr 10 fs)) 0 with
          | error => simp [after]
          | ub => simp [after]
          | ok _ => simp [after]

theorem groupField_sim (contract : Bool) (c : Wanted) (b : Block) (f : Field) (m : TagMap (List Byte)) :
    Sim N (NoOffset b ∧ stringBytes [f] < 3 * N ∧ N ≤ 11184811) (groupField c b f m) (groupFieldDouble contract c b f m) := by
  unfold groupField
  split
  · simp only [groupFieldDouble]
    split
    · exact sim_mono (sparseNode_sim contract b _ m) fun h => ⟨by omega, h.1⟩
    · exact sim_nil _
  · simp only [groupFieldDouble]
    split
    · exact denseNodes_sim contract b _ m
    · exact sim_nil _
  · simp only [groupFieldDouble]
    split
    · exact sim_other way_calls
    · exact sim_nil _
  · simp only [groupFieldDouble]
    split
    · exact sim_other relation_calls
    · exact sim_nil _
  · rename_i h1 h2 h3 h4
    have : groupFieldDouble contract c b f m = ([], .ok m) := by
      unfold groupFieldDouble
      split
      · exact absurd rfl (h1 _)
      · exact absurd rfl (h2 _)
      · exact absurd rfl (h3 _)
      · exact absurd rfl (h4 _)
      · rfl
    rw [this]
    exact sim_nil _

theorem groupFields_sim (contract : Bool) (c : Wanted) (b : Block) : ∀ (fs : List Field) (m : TagMap (List Byte)),
    Sim N (NoOffset b ∧ stringBytes fs < 3 * N ∧ N ≤ 11184811) (groupFields c b fs m) (groupFieldsDouble contract c b fs m)
  | [], m => sim_nil _
  | f :: fs, m => by
    rw [stringBytes_cons]
    exact sim_step (sim_mono (groupField_sim contract c b f m) fun h => ⟨h.1, by omega, h.2.2⟩)
      fun m => sim_mono (groupFields_sim contract c b fs m) fun h => ⟨h.1, by omega, h.2.2⟩

theorem decodeGroup_sim (contract : Bool) (c : Wanted) (b : Block) (l : List Byte) (m : TagMap (List Byte)) :
    Sim N (NoOffset b ∧ l.length < 3 * N ∧ N ≤ 11184811) (decodeGroup c b l m) (decodeGroupDouble contract c b l m) := by
  unfold decodeGroup decodeGroupDouble
  refine sim_step (sim_mono (groupFields_sim contract c b _ m) fun h => ⟨h.1, ?_, h.2.2⟩) fun m => sim_after fun _ _ => sim_nil _
  exact (message_bytes _ _).trans_lt h.2.1

theorem decodeGroups_sim (contract : Bool) (c : Wanted) (b : Block) : ∀ (gs : List (List Byte)) (m : TagMap (List Byte)),
    Sim N (NoOffset b ∧ N ≤ 11184811 ∧ ∀ g ∈ gs, g.length < 3 * N) (decodeGroups c b gs m) (decodeGroupsDouble contract c b gs m)
  | [], m => sim_nil _
  | g :: gs, m => by
    exact sim_step (sim_mono (decodeGroup_sim contract c b g m) fun h => ⟨h.1, h.2.2 g (by simp), h.2.1⟩)
      fun m => sim_mono (decodeGroups_sim contract c b gs m) fun h => ⟨h.1, h.2.1, fun g hg => h.2.2 g (by simp [hg])⟩

theorem blockFields_groups : ∀ (fs : List Field) (b b' : Block) (n : Nat), blockFields b fs = .ok b' → stringBytes fs ≤ n → (∀ g ∈ b.groups, g.length ≤ n) →
    ∀ g ∈ b'.groups, g.length ≤ n
  | [], b, b', n, h, _, hg => by simp only [blockFields, Res.ok.injEq] at h; subst h; exact hg
  | f :: fs, b, b', n, h, hn, hg => by
    rw [stringBytes_cons] at hn
    simp only [blockFields] at h
    cases e : blockField b f with
    | error => rw [e] at h; cases h
    | ub => rw [e] at h; cases h
    | ok b1 =>
      rw [e, Res.ok_bind] at h
      refine blockFields_groups fs b1 b' n h (by omega) ?_
      unfold blockField at e
      split at e
      · cases e; exact hg
      · cases e; exact hg
      · cases e; exact hg
      · rename_i c
        cases e2 : stringTable c with
        | error => rw [e2] at e; cases e
        | ub => rw [e2] at e; cases e
        | ok l => rw [e2, Res.ok_bind] at e; cases e; exact hg
      · cases e
        intro g hg'
        rcases List.mem_append.1 hg' with h | h
        · exact hg g h
        · simp only [List.mem_singleton] at h
          subst h
          simp only [stringBytes] at hn
          omega
      · cases e; exact hg

theorem block_groups {l : List Byte} {b : Block} (h : decodeBlock l = .ok b) : ∀ g ∈ b.groups, g.length ≤ l.length := by
  unfold decodeBlock at h
  simp only at h
  cases e : blockFields ⟨100, 0, 0, [], []⟩ (decodeMessage (l.length + 1) l).1 with
  | error => rw [e] at h; cases h
  | ub => rw [e] at h; cases h
  | ok b1 =>
    rw [e, Res.ok_bind] at h
    have : b1 = b := by
      cases e2 : (decodeMessage (l.length + 1) l).2 with
      | error => rw [e2] at h; cases h
      | ub => rw [e2] at h; cases h
      | ok _ =>
        rw [e2, Res.ok_bind] at h
        split at h
        · cases h
        · cases h; rfl
    subst this
    exact blockFields_groups _ _ _ _ e (message_bytes _ _) (by simp)

/-- A block whose coordinates are computed precisely enough. -/
def GoodBlock (N : Nat) (l : List Byte) : Prop := (l.length < 2 ^ 25 ∧ l.length < 3 * N ∧ N ≤ 11184811) ∧ ∀ b, decodeBlock l = .ok b → NoOffset b

theorem readBlock_sim (contract : Bool) (c : Wanted) (l : List Byte) (m : TagMap (List Byte)) :
    Sim N (GoodBlock N l) (readBlock c l m) (readBlockDouble contract c l m) := by
  unfold readBlock readBlockDouble
  refine sim_after fun b hb => sim_mono (decodeGroups_sim contract c b b.groups m) ?_
  rintro ⟨h1, h2⟩
  exact ⟨h2 b hb, h1.2.2, fun g hg => (block_groups hb g hg).trans_lt h1.2.1⟩

/-- A stream of such blocks. -/
def GoodStream (N : Nat) (l : List Byte) : Prop := ∃ ds : List (List Byte), l = (ds.map frame).flatten ∧ ∀ d ∈ ds, GoodBlock N d

theorem goodStream_step {l : List Byte} (h : GoodStream N l) {p l1 b l2 : List Byte} (e1 : readStream 4 l = .ok (some (p, l1)))
    (e2 : readOrThrow (load32 p).toNat l1 = .ok (b, l2)) : GoodBlock N b ∧ GoodStream N l2 := by
  obtain ⟨ds, rfl, hd⟩ := h
  cases ds with
  | nil => rw [List.map_nil, List.flatten_nil, readStream_end 4 (by decide) (by decide)] at e1; cases e1
  | cons d ds =>
    have hl := (hd d (by simp)).1.1
    rw [List.map_cons, List.flatten_cons, show frame d ++ (ds.map frame).flatten = store32 (BitVec.ofNat 32 d.length) ++ (d ++ (ds.map frame).flatten) by
      unfold frame; rw [List.append_assoc], readStream_append (store32_length _) (by decide)] at e1
    cases e1
    rw [load_store, BitVec.toNat_ofNat, Nat.mod_eq_of_lt (by omega), readOrThrow_append rfl (by unfold readSize; omega)] at e2
    cases e2
    exact ⟨hd _ (by simp), ds, rfl, fun d hd' => hd d (by simp [hd'])⟩

theorem blockStream_sim (contract : Bool) (c : Wanted) : ∀ (fuel : Nat) (l : List Byte) (m : TagMap (List Byte)),
    Sim N (GoodStream N l) (blockStream c fuel l m) (blockStreamDouble contract c fuel l m)
  | 0, _, _ => sim_nil _
  | fuel + 1, l, m => by
    unfold blockStream blockStreamDouble
    refine sim_after fun r e1 => ?_
    cases r with
    | none => exact sim_nil _
    | some p =>
      obtain ⟨p, l1⟩ := p
      simp only
      refine sim_after fun q e2 => ?_
      obtain ⟨b, l2⟩ := q
      exact sim_step (sim_mono (readBlock_sim contract c b m) fun h => (goodStream_step h e1 e2).1)
        fun m => sim_mono (blockStream_sim contract c fuel l2 m) fun h => (goodStream_step h e1 e2).2

/-- Outcomes of the other thread with such blocks. -/
def GoodInput (N : Nat) (ls : List (List Byte)) : Prop := ∃ ds : List (List Byte), ls = ds.map frame ∧ ∀ d ∈ ds, GoodBlock N d

theorem internalRead_sim (contract : Bool) (c : Wanted) (d : List (List Byte) × Res Unit) (k : Nat) :
    Sim N (GoodInput N d.1) (internalRead c d k) (internalReadDouble contract c d k) := by
  unfold internalRead internalReadDouble
  cases d.2 with
  | ok _ =>
    refine sim_mono (blockStream_sim contract c _ _ _) ?_
    rintro ⟨ds, e, h⟩
    exact ⟨ds, by rw [e], h⟩
  | error =>
    refine sim_step (sim_mono (blockStream_sim contract c _ _ _) ?_) fun _ => sim_nil _
    rintro ⟨ds, e, h⟩
    exact ⟨ds.take k, by rw [e, List.map_take], fun d hd => h d (List.mem_of_mem_take hd)⟩
  | ub => exact sim_nil _

theorem unorderedRead_sim (contract : Bool) (inflate : List Byte → Option (List Byte)) (own : Bool) (c : Wanted) (k : Nat) (file : List Byte) :
    Sim N (GoodInput N (decompressFile inflate own file).2.1) (unorderedRead inflate own c k file) (unorderedReadDouble contract inflate own c k file) := by
  unfold unorderedRead unorderedReadDouble
  split
  · exact internalRead_sim contract c _ k
  · exact sim_nil _

theorem orderedRead_sim (contract : Bool) (inflate : List Byte → Option (List Byte)) (own : Bool) (c : Wanted) (assumeOrdered : Bool) (k : Nat → Nat)
    (file : List Byte) : Sim N (GoodInput N (decompressFile inflate own file).2.1) (orderedRead inflate own c assumeOrdered k file)
      (orderedReadDouble contract inflate own c assumeOrdered k file) := by
  unfold orderedRead orderedReadDouble
  simp only
  split
  · split
    · exact sim_nil _
    · split
      · exact internalRead_sim contract c _ _
      · refine sim_step (sim_step ?_ fun _ => ?_) fun _ => ?_
        · split
          · exact internalRead_sim contract _ _ _
          · exact sim_nil _
        · split
          · exact internalRead_sim contract _ _ _
          · exact sim_nil _
        · split
          · exact internalRead_sim contract _ _ _
          · exact sim_nil _
  · exact sim_nil _

theorem goodInput_of {ds : List (List Byte)} {parts : List (List _root_.Spec.OsmItem)} (h : List.Forall₂ PlainBlock ds parts) (hN : ∀ d ∈ ds, d.length < 3 * N) (hN' : N ≤ 11184811) : GoodInput N (ds.map frame) := by
  refine ⟨ds, rfl, ?_⟩
  induction h with
  | nil => simp
  | @cons d items ds parts hd _ ih =>
    intro x hx
    rcases List.mem_cons.1 hx with rfl | hx
    · obtain ⟨hl, h, h1, h2, h3⟩ := hd
      refine ⟨⟨hl, hN _ (by simp), hN'⟩, fun b hb => ?_⟩
      obtain ⟨gs, parts, e, _⟩ := decodeBlock_ok h3 h1 h2
      rw [e] at hb
      cases hb
      exact ⟨rfl, rfl⟩
    · exact ih (fun d hd => hN d (by simp [hd])) x hx

end RK.Osm
