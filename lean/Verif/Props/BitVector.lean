import Verif.Proof.BitVectorResize
import Verif.Proof.History
import Verif.Spec.BitVector
/-! # Property theorems C10, C11, C12 (bit_vector.h, bit_vector.cpp) -/
namespace RK.Props
open Spec BitVector

/-- Model state of a program: the bit vector stored in every variable. -/
abbrev BVState := Nat → BitVector

def BVState.update (e : BVState) (r : Nat) (v : BitVector) : BVState := fun i => if i = r then v else e i

/-- store the result of a mutating call -/
def store (e : BVState) (r : Nat) (v : Option BitVector) : Option (BVState × BVOut) :=
  v.map fun v => (e.update r v, .unit)

/-- Executes one statement on the model. -/
def bvCall (e : BVState) : BVOp → Option (BVState × BVOut)
  | .init r n b => store e r (BitVector.new n b)
  | .copy r s => store e r (BitVector.copy (e s))
  | .set r x => store e r ((e r).set x)
  | .setTo r x b => store e r ((e r).setTo x b)
  | .setIf r x b => store e r ((e r).setIf x b)
  | .reset r x => store e r ((e r).reset x)
  | .toggle r x => store e r ((e r).toggle x)
  | .isSet r x => ((e r).isSet x).map fun b => (e, .flag b)
  | .size r => some (e, .num (e r).size)
  | .setAll r => store e r (e r).setAll
  | .setAllTo r b => store e r ((e r).setAllTo b)
  | .resetAll r => store e r (e r).resetAll
  | .orEq r s => store e r ((e r).orEq (e s))
  | .xorEq r s => store e r ((e r).xorEq (e s))
  | .andEq r s => store e r ((e r).andEq (e s))
  | .inplaceNot r => store e r (e r).inplaceNot
  | .countTrue r => (e r).populationCount.map fun k => (e, .num k)
  | .countFalse r => (e r).countFalse.map fun k => (e, .num k)
  | .isAnySet r => (e r).isAnySet.map fun b => (e, .flag b)
  | .areAllSet r => (e r).areAllSet.map fun b => (e, .flag b)
  | .eq r s => ((e r).eq (e s)).map fun b => (e, .flag b)
  | .resize r n b => store e r ((e r).resize n b)
  | .makeLarge r x b => store e r ((e r).makeLargeEnoughFor x b)

/-- All variables start as default constructed vectors. -/
def bvInit : BVState := fun _ => BitVector.null

theorem bound_of_max {n : Nat} (h : n ≤ maxBits) : n + 511 < u64 := by
  unfold maxBits at h; unfold u64; omega

theorem bvCall_spec {e : BVState} {E : BVEnv} (h : ∀ i, (e i).Rep (E i)) {op : BVOp}
    (hp : BVPre E op) (hd : ¬ BVDefect E op) :
    ∃ e' out E', bvCall e op = some (e', out) ∧ BVStep E op out E' ∧ ∀ i, (e' i).Rep (E' i) := by
  have asg : ∀ {r : Nat} {v : Option BitVector} {B : List Bool},
      (∃ v', v = some v' ∧ v'.Rep B) →
      ∃ e' out E', store e r v = some (e', out) ∧ Assigns E r B out E' ∧ ∀ i, (e' i).Rep (E' i) := by
    rintro r v B ⟨v', rfl, hr⟩
    refine ⟨_, _, _, rfl, ⟨rfl, rfl⟩, ?_⟩
    intro i
    unfold BVState.update BVEnv.update
    by_cases hi : i = r
    · rw [if_pos hi, if_pos hi]; exact hr
    · rw [if_neg hi, if_neg hi]; exact h i
  have tst : ∀ {v : Option Bool} {P : Prop}, (∃ b, v = some b ∧ (b = true ↔ P)) →
      ∃ e' out E', v.map (fun b => (e, BVOut.flag b)) = some (e', out) ∧ Tests E P out E' ∧
        ∀ i, (e' i).Rep (E' i) := by
    rintro v P ⟨b, rfl, hb⟩
    exact ⟨e, _, E, rfl, ⟨⟨b, rfl, hb⟩, rfl⟩, h⟩
  cases op with
  | init r n b =>
    obtain ⟨v, e1, hr, _⟩ := rep_new (bound_of_max hp) b
    exact asg ⟨v, e1, hr⟩
  | copy r s => exact asg (h s).copy
  | set r x => exact asg ((h r).set hp)
  | setTo r x b => exact asg ((h r).setTo hp b)
  | setIf r x b =>
    obtain ⟨v, e1, hr⟩ := (h r).setIf hp b
    cases b with
    | true =>
      refine asg ⟨v, e1, ?_⟩
      simpa using hr
    | false =>
      refine asg ⟨v, e1, ?_⟩
      have hp' : x < (E r).length := hp
      rw [Bool.or_false, at_lt hp', List.set_getElem_self] at hr
      exact hr
  | reset r x => exact asg ((h r).reset hp)
  | toggle r x =>
    obtain ⟨v, e1, hr⟩ := (h r).toggle hp
    obtain ⟨e', out, E', h1, h2, h3⟩ := asg (r := r) ⟨v, e1, hr⟩
    exact ⟨e', out, E', h1, ⟨at' (E r) x, by rw [at_lt hp]; exact List.getElem?_eq_getElem hp, h2⟩, h3⟩
  | isSet r x =>
    refine tst ⟨_, (h r).isSet hp, ?_⟩
    rw [at_lt hp, List.getElem?_eq_getElem hp]; simp
  | size r => exact ⟨e, _, E, rfl, ⟨by rw [(h r).size], rfl⟩, h⟩
  | setAll r => exact asg (h r).setAll
  | setAllTo r b => exact asg ((h r).setAllTo b)
  | resetAll r => exact asg (h r).resetAll
  | orEq r s => exact asg ((h r).orEq (h s) hp)
  | xorEq r s => exact asg ((h r).xorEq (h s) hp)
  | andEq r s => exact asg ((h r).andEq (h s) hp)
  | inplaceNot r => exact asg (h r).inplaceNot
  | countTrue r =>
    exact ⟨e, _, E, by simp only [bvCall, (h r).populationCount]; rfl, ⟨rfl, rfl⟩, h⟩
  | countFalse r =>
    exact ⟨e, _, E, by simp only [bvCall, (h r).countFalse]; rfl, ⟨rfl, rfl⟩, h⟩
  | isAnySet r => exact tst (h r).isAnySet
  | areAllSet r =>
    exact tst ((h r).areAllSet (by simp only [BVDefect] at hd; omega))
  | eq r s => exact tst ((h r).eq (h s))
  | resize r n b =>
    refine asg ((h r).resize (bound_of_max hp) b ?_)
    rintro rfl
    simp only [BVDefect] at hd
    have := (h r).size
    unfold ResizeTrueOK
    right
    omega
  | makeLarge r x b =>
    obtain ⟨v', k, e1, hr, hx⟩ := (h r).makeLargeEnoughFor hp b (by
      rintro rfl hle
      simp only [BVDefect] at hd
      have := (h r).size
      right; omega)
    obtain ⟨e', out, E', h1, h2, h3⟩ := asg (r := r) ⟨v', e1, hr⟩
    exact ⟨e', out, E', h1, ⟨k, hx, h2⟩, h3⟩

/-- C10. Every program that constructs, copies, reads and writes bits of bit vectors of any size
behaves as if the variables were lists of booleans: reads and writes concern exactly the addressed
bit. -/
theorem C10_element_operations :
    Implements bvCall BVStep (fun E op => op.isElementOp ∧ BVPre E op) bvInit (fun _ => []) :=
  implements_of_simulation (fun e E => ∀ i, (e i).Rep (E i)) (fun _ => rep_null)
    (fun _ _ op h hp => bvCall_spec h hp.2 (by
      intro hd
      have := hp.1
      cases op <;> first | exact this | exact hd))

/-- C11 and C12, everything the code does right: programs using all operations of the interface behave
as programs over lists of booleans, provided they avoid the calls described by `BVDefect`.
Missing for the full claims: `are_all_set` on positive multiples of 512 bits, and growing with value
`true` from or to a multiple of 512 bits (violated by the code, see the theorems below). -/
theorem C11_all_operations_partial :
    Implements bvCall BVStep (fun E op => BVPre E op ∧ ¬ BVDefect E op) bvInit (fun _ => []) :=
  implements_of_simulation (fun e E => ∀ i, (e i).Rep (E i)) (fun _ => rep_null)
    (fun _ _ _ h hp => bvCall_spec h hp.1 hp.2)

/-- C12 by the same theorem: `resize` keeps the old bits and gives new bits the requested value, within
any program over all operations, except for the calls described by `BVDefect`. -/
theorem C12_all_operations_partial :
    Implements bvCall BVStep (fun E op => BVPre E op ∧ ¬ BVDefect E op) bvInit (fun _ => []) :=
  C11_all_operations_partial

/-- `e` is the final state of a program over bit vectors that respects the preconditions and avoids
the defective calls. -/
def BVReachable (e : BVState) : Prop :=
  ∃ ops outs, Legal bvCall BVStep (fun E op => BVPre E op ∧ ¬ BVDefect E op) bvInit (fun _ => []) ops ∧
    runCalls bvCall bvInit ops = some (e, outs)

theorem BVReachable.rep {e : BVState} (h : BVReachable e) : ∃ E : BVEnv, ∀ i, (e i).Rep (E i) := by
  obtain ⟨ops, outs, hl, hr⟩ := h
  obtain ⟨e', _, E, h1, _, h2⟩ := run_of_simulation (call := bvCall) (step := BVStep)
    (pre := fun E op => BVPre E op ∧ ¬ BVDefect E op) (c := bvInit) (s := fun _ => [])
    (fun (e : BVState) (E : BVEnv) => ∀ i, (e i).Rep (E i)) (fun _ => rep_null)
    (fun _ _ op h hp => bvCall_spec (op := op) h hp.1 hp.2) ops hl
  rw [h1] at hr
  cases hr
  exact ⟨E, h2⟩

/-- C12, `resize(n, Uninitialized)`: the old bits are kept, whatever the fresh memory contains. -/
theorem C12_resize_uninitialized {e : BVState} (h : BVReachable e) (r n : Nat)
    (hn : n ≤ maxBits) (junk : Nat → Word) :
    ∃ v', (e r).resizeUninit n junk = some v' ∧ v'.size = n ∧
      (∀ x, x < n → x < (e r).size → v'.isSet x = (e r).isSet x) := by
  obtain ⟨E, hE⟩ := h.rep
  obtain ⟨v', B', e1, hr, hl, h1, _⟩ := (hE r).resizeUninit (bound_of_max hn) junk
  refine ⟨v', e1, by rw [hr.size, hl], ?_⟩
  intro x hx hB
  rw [(hE r).size] at hB
  rw [hr.isSet (by omega), h1 x hx hB, (hE r).isSet hB]

/-- C12, a default constructed vector can be resized with any value to any size. -/
theorem C12_resize_default_constructed (n : Nat) (hn : n ≤ maxBits) (b : Bool) :
    ∃ v', BitVector.null.resize n b = some v' ∧ v'.size = n ∧
      ∀ x, x < n → v'.isSet x = some b := by
  obtain ⟨v', e, hr⟩ := rep_null.resize (bound_of_max hn) b (fun _ => Or.inl rfl)
  refine ⟨v', e, by rw [hr.size]; simp, ?_⟩
  intro x hx
  rw [hr.isSet (by simpa using hx), at_take_append]
  simp [hx]

/-- `make_bit_vector(n, f)` evaluates `f` at every index, whatever the fresh memory contained. -/
theorem C11_make_bit_vector (n : Nat) (hn : n ≤ maxBits) (f : Nat → Bool) (junk : Nat → Word) :
    ∃ v, BitVector.make n f junk = some v ∧ v.size = n ∧ ∀ x, x < n → v.isSet x = some (f x) := by
  obtain ⟨v, e, hr⟩ := rep_make (bound_of_max hn) f junk
  refine ⟨v, e, by rw [hr.size]; simp, ?_⟩
  intro x hx
  rw [hr.isSet (by simpa using hx), at_map_range]
  simp [hx]

theorem less_order {a b c : BitVector} {A B C : List Bool} (ha : a.Rep A)
    (hb : b.Rep B) (hc : c.Rep C) :
    a.lt a = some false ∧
    (a.lt b = some true → b.lt c = some true → a.lt c = some true) ∧
    (A = B ∨ a.lt b = some true ∨ b.lt a = some true) ∧
    (A = B → a.lt b = some false) := by
  obtain ⟨r1, e1, h1⟩ := ha.lt ha
  obtain ⟨r2, e2, h2⟩ := ha.lt hb
  obtain ⟨r3, e3, h3⟩ := hb.lt hc
  obtain ⟨r4, e4, h4⟩ := ha.lt hc
  obtain ⟨r5, e5, h5⟩ := hb.lt ha
  rw [e1, e2, e3, e4, e5]
  simp only [Option.some.injEq]
  refine ⟨?_, ?_, ?_, ?_⟩
  · by_contra hc'
    rcases h1.1 (by simpa using hc') with h | ⟨_, h⟩
    · omega
    · exact LexLt.irrefl h
  · intro x1 x2
    rw [h4]
    rcases h2.1 x1 with y1 | ⟨y1, z1⟩ <;> rcases h3.1 x2 with y2 | ⟨y2, z2⟩
    · left; omega
    · left; omega
    · left; omega
    · right; rw [y1] at z1 ⊢; exact ⟨y2, z1.trans z2⟩
  · rw [h2, h5]
    rcases Nat.lt_trichotomy a.size b.size with h | h | h
    · exact Or.inr (Or.inl (Or.inl h))
    · by_cases hAB : A = B
      · exact Or.inl hAB
      · right
        rcases lexLt_total (ha.words_differ hb (by rw [← ha.size, ← hb.size, h]) hAB) with h' | h'
        · exact Or.inl (Or.inr ⟨h, h'⟩)
        · right; right; rw [← h]; exact ⟨rfl, h'⟩
    · exact Or.inr (Or.inr (Or.inl h))
  · rintro rfl
    by_contra hc'
    have hs : a.size = b.size := by rw [ha.size, hb.size]
    rcases h2.1 (by simpa using hc') with h | ⟨_, j, hj, hje, hjl⟩
    · omega
    · have : wordAt a.words j = wordAt b.words j := by
        apply BitVec.eq_of_getLsbD_eq
        intro i hi
        rw [← bit_word hi, ← bit_word hi, ha.bits, hb.bits]
      rw [this] at hjl; omega

/-- `operator<` is a strict total order on the vectors a program can build, compatible with
`operator==`. -/
theorem C11_less_is_strict_total_order {e : BVState} (h : BVReachable e) (a b c : Nat) :
    (e a).lt (e a) = some false ∧
    ((e a).lt (e b) = some true → (e b).lt (e c) = some true → (e a).lt (e c) = some true) ∧
    ((e a).eq (e b) = some true ∨ (e a).lt (e b) = some true ∨ (e b).lt (e a) = some true) ∧
    ((e a).eq (e b) = some true → (e a).lt (e b) = some false) := by
  obtain ⟨E, hE⟩ := h.rep
  obtain ⟨h1, h2, h3, h4⟩ := less_order (hE a) (hE b) (hE c)
  obtain ⟨q, eq, hq⟩ := (hE a).eq (hE b)
  rw [eq]
  simp only [Option.some.injEq, hq]
  exact ⟨h1, h2, h3, h4⟩

/-- C11 is violated: on every vector whose size is a positive multiple of 512, `are_all_set` ignores
the last 512 bits. -/
theorem C11_are_all_set_ignores_last_block {e : BVState} (h : BVReachable e) (r k : Nat)
    (hk : (e r).size = 512 * (k + 1)) :
    ∃ b, (e r).areAllSet = some b ∧ (b = true ↔ ∀ x, x < 512 * k → (e r).isSet x = some true) := by
  obtain ⟨E, hE⟩ := h.rep
  have h := hE r
  rw [h.size] at hk
  obtain ⟨b, e, hb⟩ := h.areAllSet_mult hk
  refine ⟨b, e, ?_⟩
  rw [hb]
  constructor
  · intro hh x hx; rw [h.isSet (by omega), hh x hx]
  · intro hh x hx
    have := hh x hx
    rw [h.isSet (by omega)] at this
    injection this

/-- Witness: a vector of 512 zeros claims that all its bits are set. -/
theorem C11_are_all_set_violated : (BitVector.new 512 false).bind areAllSet = some true := by decide

/-- Witnesses for the violations of C12 by `resize(n, true)`: growing inside a block to a multiple of
512 leaves new bits unset; growing from a multiple of 512 sets old bits; growing to a multiple of 512
over several blocks leaves new bits unset; resizing to the same multiple of 512 accesses memory behind
the array. -/
theorem C12_resize_true_violated :
    ((BitVector.new 1 false).bind fun v => (v.resize 512 true).bind fun v => v.isSet 1) = some false ∧
    ((BitVector.new 512 false).bind fun v => (v.resize 513 true).bind fun v => v.isSet 0) = some true ∧
    ((BitVector.new 1 false).bind fun v => (v.resize 1024 true).bind fun v => v.isSet 1023) =
      some false ∧
    ((BitVector.new 512 false).bind fun v => v.resize 512 true) = none := by decide

/-- `make_large_enough_for(x, true)` inherits the defect. -/
theorem C12_make_large_enough_true_violated :
    ((BitVector.new 1 false).bind fun v => (v.makeLargeEnoughFor 300 true).bind fun v => v.isSet 1) =
      some false := by decide

/-- A copy of an empty vector cannot be grown with `true`: the code writes before the array. -/
theorem C12_resize_true_copy_of_empty :
    ((BitVector.copy BitVector.null).bind fun v => v.resize 513 true) = none := by decide

/-- Non-vacuity: a program whose statements are all legal and not defective. -/
example : (runCalls bvCall bvInit [.init 0 5 false, .set 0 3, .copy 1 0, .inplaceNot 1, .orEq 1 0,
    .isSet 1 3, .countTrue 1, .areAllSet 1, .resize 1 700 true, .countTrue 1, .toggle 1 699,
    .areAllSet 1, .eq 0 1]).map (·.2) =
    some [.unit, .unit, .unit, .unit, .unit, .flag true, .num 5, .flag true, .unit, .num 700, .unit,
      .flag false, .flag false] := by decide

/-- Non-vacuity of the legality hypothesis. -/
example : Legal bvCall BVStep (fun E op => BVPre E op ∧ ¬ BVDefect E op) bvInit (fun _ => [])
    [.init 0 5 false, .resize 0 700 true] := by
  refine legal_of_spec ?_
  intro pre op post hh outs m hr
  match pre, hh with
  | [], hh => cases hh; exact ⟨by simp [BVPre, maxBits], by simp [BVDefect]⟩
  | [a], hh =>
    cases hh
    obtain ⟨_, _, _, h1, h2⟩ := specRun_snoc_inv (ops := []) hr
    have hm := h2.2
    refine ⟨by simp [BVPre, maxBits], ?_⟩
    rw [hm]; simp [BVDefect, BVEnv.update]
  | a :: b :: rest, hh => simp at hh

end RK.Props
