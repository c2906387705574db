import Verif.Proof.ChDone
/-! Helper lemmas: from the input arcs to the finished hierarchy. -/
namespace RK
open Spec WitnessSearch ChGraph

/-! ### The number of arcs -/

def BuildState.Small (s : BuildState) : Prop := s.fwd.head.length ≤ invalidId ∧ s.bwd.head.length ≤ invalidId

theorem emit_small (v : Nat) : ∀ (l : List ChArc) (r r' : ChRows), forEach l r (ChRows.push v) = some r' →
    r.head.length ≤ invalidId → r'.head.length ≤ invalidId
  | [], r, r', h, hs => by simp only [forEach] at h; cases h; exact hs
  | a :: l, r, r', h, hs => by
    simp only [forEach, Option.bind_eq_bind, Option.bind_eq_some_iff] at h
    obtain ⟨r1, e1, h⟩ := h
    refine emit_small v l _ r' h ?_
    unfold ChRows.push at e1
    simp only [Option.bind_eq_bind, Option.bind_eq_some_iff] at e1
    obtain ⟨_, hc, e1⟩ := e1
    cases e1
    have := check_eq_some.1 hc
    simp at this ⊢; omega

theorem contractStep_small {s s' : BuildState} {v : Nat} (h : contractStep s v = some s') (hs : s.Small) : s'.Small := by
  obtain ⟨ov, iv, _, _, h1, h2, _⟩ := contractStep_split h
  exact ⟨emit_small v _ _ _ h1 hs.1, emit_small v _ _ _ h2 hs.2⟩

theorem empty_small (g : ChGraph) (w : WitnessSearch) : BuildState.Small ⟨g, w, .empty, .empty⟩ :=
  ⟨Nat.zero_le _, Nat.zero_le _⟩

theorem orderLoop_small : ∀ (fuel : Nat) (s r : OrderState), orderLoop fuel s = some r →
    s.build.Small → r.build.Small
  | fuel, s, r, h, hs => by
    unfold orderLoop at h
    by_cases he : s.queue.empty = true
    · rw [if_pos he] at h; cases h; exact hs
    · rw [if_neg he] at h
      cases fuel with
      | zero => cases h
      | succ fuel =>
        simp only [Option.bind_eq_bind, Option.bind_eq_some_iff] at h
        obtain ⟨s1, e1, h⟩ := h
        refine orderLoop_small fuel s1 r h ?_
        obtain ⟨q, p, rank, order, iv, ov, m1, m2, l, b, r, _, _, _, _, _, h6, _, rfl⟩ := orderStep_split e1
        have := contractStep_small h6 hs
        exact ⟨this.1, this.2⟩

theorem buildChAndOrder_small {g : ChGraph} {maxPop : Nat} {rank order : List Nat} {s : BuildState}
    (h : buildChAndOrder g maxPop = some (rank, order, s)) : s.Small := by
  unfold buildChAndOrder at h
  simp only [Option.bind_eq_bind, Option.bind_eq_some_iff] at h
  obtain ⟨⟨w, q⟩, e1, r, e2, h⟩ := h
  cases h
  exact orderLoop_small _ _ r e2 (empty_small _ _)

theorem givenRank_small {n : Nat} {order : List Nat} {s s' : BuildState}
    (h : forRange 0 n s (givenRankStep order) = some s') (hs : s.Small) : s'.Small := by
  refine forRange_inv' (fun _ s => s.Small) (Nat.zero_le n) hs h ?_
  intro i s s' _ _ ih e
  unfold givenRankStep at e
  simp only [Option.bind_eq_bind, Option.bind_eq_some_iff] at e
  obtain ⟨v, _, e⟩ := e
  exact contractStep_small e ih

/-! ### No weight is lost -/

theorem applyInverse_mem {p v r : List Nat} (h : applyInversePermutation p v = some r) : ∀ w ∈ v, w ∈ r := by
  have h0 := h
  unfold applyInversePermutation at h
  simp only [Option.bind_eq_bind, Option.bind_eq_some_iff] at h
  obtain ⟨_, h1, _, h2, _⟩ := h
  have hp := checkPerm_iff.1 h1
  have hl : p.length = v.length := by have := check_eq_some.1 h2; simpa using this
  obtain ⟨r', e, hlr, hr⟩ := applyInversePermutation_spec (v := v) hp hl
  rw [h0] at e; cases e
  intro w hw
  obtain ⟨i, hi⟩ := List.getElem?_of_mem hw
  obtain ⟨q, hq, _⟩ := hp.rd (i := i) (by have := rd_some_lt (v := v) hi; omega)
  exact List.mem_of_getElem? ((hr i q hq).trans hi)

theorem sortRows_weight {n : Nat} {r r' : ChRows} {fo : List Nat} (h : sortRows n r = some (fo, r')) :
    ∀ w ∈ r.weight, w ∈ r'.weight := by
  unfold sortRows at h
  simp only [Option.bind_eq_bind, Option.bind_eq_some_iff] at h
  obtain ⟨⟨p, tail⟩, _, head, _, weight, hw, mid, _, fo', _, h⟩ := h
  cases h
  exact applyInverse_mem hw

theorem renameRows_weight {rank : List Nat} {r r' : ChRows} (h : renameRows rank r = some r') :
    r'.weight = r.weight := by
  unfold renameRows at h
  simp only [Option.bind_eq_bind, Option.bind_eq_some_iff] at h
  obtain ⟨_, _, _, _, _, _, _, _, h⟩ := h
  cases h
  rfl

theorem finishCh_weight {n : Nat} {inp : ArcCols} {rank order : List Nat} {f b : ChRows} {jf jb : Nat → Word} {ch : Ch}
    (h : finishCh n inp rank order f b jf jb = some ch) :
    (∀ w ∈ f.weight, w ∈ ch.forward.weight) ∧ ∀ w ∈ b.weight, w ∈ ch.backward.weight := by
  unfold finishCh at h
  simp only [Option.bind_eq_bind, Option.bind_eq_some_iff] at h
  obtain ⟨f1, e1, b1, e2, ⟨ffo, f2⟩, e3, ⟨bfo, b2⟩, e4, h⟩ := h
  have g1 := sortRows_weight e3
  have g2 := sortRows_weight e4
  rw [renameRows_weight e1] at g1
  rw [renameRows_weight e2] at g2
  unfold buildUnpackingInformation at h
  simp only [Option.bind_eq_bind, Option.bind_eq_some_iff] at h
  obtain ⟨_, _, _, _, _, _, _, _, _, _, _, _, h⟩ := h
  cases h
  exact ⟨g1, g2⟩

theorem applyInverse_mem' {p v r : List Nat} (h : applyInversePermutation p v = some r) : ∀ w ∈ r, w ∈ v := by
  have h0 := h
  unfold applyInversePermutation at h
  simp only [Option.bind_eq_bind, Option.bind_eq_some_iff] at h
  obtain ⟨_, h1, _, h2, _⟩ := h
  have hp := checkPerm_iff.1 h1
  have hl : p.length = v.length := by have := check_eq_some.1 h2; simpa using this
  obtain ⟨r', e, hlr, hr⟩ := applyInversePermutation_spec (v := v) hp hl
  rw [h0] at e; cases e
  intro w hw
  obtain ⟨j, hj⟩ := List.getElem?_of_mem hw
  obtain ⟨i, _, hi⟩ := hp.surj (x := j) (by have := rd_some_lt (v := r) hj; omega)
  exact List.mem_of_getElem? ((hr i j hi).symm.trans hj)

theorem sortRows_weight' {n : Nat} {r r' : ChRows} {fo : List Nat} (h : sortRows n r = some (fo, r')) :
    ∀ w ∈ r'.weight, w ∈ r.weight := by
  unfold sortRows at h
  simp only [Option.bind_eq_bind, Option.bind_eq_some_iff] at h
  obtain ⟨⟨p, tail⟩, _, head, _, weight, hw, mid, _, fo', _, h⟩ := h
  cases h
  exact applyInverse_mem' hw

theorem finishCh_weight' {n : Nat} {inp : ArcCols} {rank order : List Nat} {f b : ChRows} {jf jb : Nat → Word} {ch : Ch}
    (h : finishCh n inp rank order f b jf jb = some ch) :
    (∀ w ∈ ch.forward.weight, w ∈ f.weight) ∧ ∀ w ∈ ch.backward.weight, w ∈ b.weight := by
  unfold finishCh at h
  simp only [Option.bind_eq_bind, Option.bind_eq_some_iff] at h
  obtain ⟨f1, e1, b1, e2, ⟨ffo, f2⟩, e3, ⟨bfo, b2⟩, e4, h⟩ := h
  have g1 := sortRows_weight' e3
  have g2 := sortRows_weight' e4
  rw [renameRows_weight e1] at g1
  rw [renameRows_weight e2] at g2
  unfold buildUnpackingInformation at h
  simp only [Option.bind_eq_bind, Option.bind_eq_some_iff] at h
  obtain ⟨_, _, _, _, _, _, _, _, _, _, _, _, h⟩ := h
  cases h
  exact ⟨g1, g2⟩

/-- All arcs of the hierarchy weigh at most `M`. -/
def Ch.Light (M : Nat) (ch : Ch) : Prop :=
  (∀ w ∈ ch.forward.weight, w ≤ M) ∧ ∀ w ∈ ch.backward.weight, w ≤ M

/-! ### The input -/

theorem input_spec {n : Nat} {tail head weight : List Nat} (h1 : head.length = tail.length)
    (h2 : weight.length = tail.length) (ht : ∀ x ∈ tail, x < n) (hh : ∀ x ∈ head, x < n)
    (hsize : tail.length ≤ invalidId) :
    ∃ inp g A0 fo, ArcCols.sortAndReduce n ⟨tail, head, weight, List.range head.length⟩ = some inp ∧
      ChGraph.new n inp.tail inp.head inp.weight = some g ∧ GRep g n A0 ∧
      (∀ x y i, A0 x y = some i → i.mid = invalidId ∧ ∃ a, listArcs inp.tail inp.head inp.weight a x y i.weight) ∧
      (∀ x y i, A0 x y = some i → i.weight ∈ weight) ∧
      (∀ a x y w, listArcs tail head weight a x y w → x ≠ y → ∃ i, A0 x y = some i ∧ i.weight ≤ w) ∧
      inp.tail.Pairwise (· ≤ ·) ∧ invertVector inp.tail n = some fo ∧ InputOk n (listArcs tail head weight) inp fo ∧
      ∀ x y i, A0 x y = some i → i.hop = 1 := by
  obtain ⟨inp, e, l1, l2, l3, hss, hget, hall⟩ := Props.C20_reduced_arcs n tail head weight (List.range head.length)
    h1 h2 (by simpa using h1) ht hh
  have harc : ∀ a, a < inp.tail.length → listArcs inp.tail inp.head inp.weight a (fn inp.tail a) (fn inp.head a) (fn inp.weight a) :=
    fun a ha => ⟨rd_fn ha, rd_fn (by omega), rd_fn (by omega)⟩
  have hsrc : ∀ a x y w, listArcs inp.tail inp.head inp.weight a x y w → x < n ∧ y < n ∧ x ≠ y ∧ w ∈ weight ∧
      (∃ i, rd inp.id a = some i ∧ listArcs tail head weight i x y w) ∧
      ∀ b w', listArcs tail head weight b x y w' → w ≤ w' := by
    intro a x y w ha
    obtain ⟨hxy, i, hid, hi, hmin⟩ := hget a x y w ha
    refine ⟨ht x (List.mem_of_getElem? hi.1), hh y (List.mem_of_getElem? hi.2.1), hxy,
      List.mem_of_getElem? hi.2.2, ⟨i, ?_, hi⟩, ?_⟩
    · have hil : i < head.length := rd_some_lt (v := head) hi.2.1
      rw [show rd inp.id a = inp.id[a]? from rfl, hid, List.getElem?_range hil]
    · intro b w' hb
      have := hmin b w' hb; omega
  have hinj : ∀ a b x y, rd inp.tail a = some x → rd inp.head a = some y → rd inp.tail b = some x →
      rd inp.head b = some y → a = b := by
    intro a b x y a1 a2 b1 b2
    rcases Nat.lt_trichotomy a b with hab | hab | hab
    · have := hss a b x x y y hab a1 b1 a2 b2; omega
    · exact hab
    · have := hss b a x x y y hab b1 a1 b2 a2; omega
  obtain ⟨g, A0, eg, hg, hA⟩ := ChGraph.new_spec (n := n) (m := inp.tail.length) (tail := inp.tail) (head := inp.head)
    (weight := inp.weight) rfl l1 l2 (fun a h => (hsrc _ _ _ _ (harc a h)).1)
    (fun a h => (hsrc _ _ _ _ (harc a h)).2.1) (fun a h => (hsrc _ _ _ _ (harc a h)).2.2.1) (by
      intro a b hal hbl e1 e2
      exact hinj a b _ _ (harc a hal).1 (harc a hal).2.1 (by rw [e1]; exact (harc b hbl).1)
        (by rw [e2]; exact (harc b hbl).2.1))
  have hpw : inp.tail.Pairwise (· ≤ ·) := by
    rw [List.pairwise_iff_getElem]
    intro i j hi hj hij
    have := hss i j _ _ _ _ hij (List.getElem?_eq_getElem hi) (List.getElem?_eq_getElem hj)
      (List.getElem?_eq_getElem (by omega)) (List.getElem?_eq_getElem (by omega))
    omega
  have htn : ∀ x ∈ inp.tail, x < n := by
    intro x hx
    obtain ⟨i, hi⟩ := List.getElem?_of_mem hx
    have hil := rd_some_lt (v := inp.tail) hi
    have := (hsrc _ _ _ _ (harc i hil)).1
    rwa [fn_of_rd hi] at this
  have hhn : ∀ x ∈ inp.head, x < n := by
    intro x hx
    obtain ⟨i, hi⟩ := List.getElem?_of_mem hx
    have hil := rd_some_lt (v := inp.head) hi
    have := (hsrc _ _ _ _ (harc i (by omega))).2.1
    rwa [fn_of_rd hi] at this
  obtain ⟨fo, ef, lf, vf⟩ := invertVector_spec (n := n) hpw htn
  have hown := outArc_of_index hpw htn lf vf
  have hsize' : inp.tail.length ≤ tail.length := by
    -- distinct reduced arcs come from distinct input arcs
    have hnd : (inp.id).Nodup := by
      rw [List.nodup_iff_injective_getElem]
      intro ⟨i, hi⟩ ⟨j, hj⟩ hij
      simp only at hij
      obtain ⟨_, _, _, _, ⟨k, hk, hk'⟩, _⟩ := hsrc _ _ _ _ (harc i (by omega))
      obtain ⟨_, _, _, _, ⟨k2, hk2, hk2'⟩, _⟩ := hsrc _ _ _ _ (harc j (by omega))
      have e1 : some (inp.id[i]) = some k := (List.getElem?_eq_getElem hi).symm.trans hk
      have e2 : some (inp.id[j]) = some k2 := (List.getElem?_eq_getElem hj).symm.trans hk2
      cases e1
      cases e2
      rw [hij] at hk'
      have t1 := hk'.1.symm.trans hk2'.1
      have t2 := hk'.2.1.symm.trans hk2'.2.1
      injection t1 with t1
      injection t2 with t2
      have := hinj i j _ _ (harc i (by omega)).1 (harc i (by omega)).2.1 (by rw [t1]; exact (harc j (by omega)).1)
        (by rw [t2]; exact (harc j (by omega)).2.1)
      simp [this]
    have hsub : inp.id ⊆ List.range tail.length := by
      intro k hk
      obtain ⟨i, hi⟩ := List.getElem?_of_mem hk
      have hil := rd_some_lt (v := inp.id) hi
      obtain ⟨_, _, _, _, ⟨k2, hk2, hk2'⟩, _⟩ := hsrc _ _ _ _ (harc i (by omega))
      have : some k = some k2 := hi.symm.trans hk2
      cases this
      rw [List.mem_range]
      exact rd_some_lt (v := tail) hk2'.1
    have := (hnd.subperm hsub).length_le
    rw [List.length_range] at this
    omega
  refine ⟨inp, g, A0, fo, e, eg, hg, ?_, ?_, ?_, hpw, ef,
    ⟨isCSR_of_index htn (by omega) hhn lf vf, ?_, hown, by omega, by omega, by omega, hinj, ?_⟩, ?_⟩
  · intro x y i hi
    obtain ⟨a, hal, rfl, rfl, rfl⟩ := (hA x y i).1 hi
    exact ⟨rfl, a, harc a hal⟩
  · intro x y i hi
    obtain ⟨a, hal, rfl, rfl, rfl⟩ := (hA x y i).1 hi
    exact (hsrc _ _ _ _ (harc a hal)).2.2.2.1
  · intro a x y w ha hxy
    obtain ⟨j, w', hj⟩ := hall a x y w ha hxy
    have hjl : j < inp.tail.length := rd_some_lt (v := inp.tail) hj.1
    have e1 := fn_of_rd (v := inp.tail) hj.1
    have e2 := fn_of_rd (v := inp.head) hj.2.1
    have e3 := fn_of_rd (v := inp.weight) hj.2.2
    exact ⟨⟨fn inp.weight j, 1, invalidId⟩, (hA x y _).2 ⟨j, hjl, e1, e2, rfl⟩, by
      rw [e3]; exact (hsrc j x y w' hj).2.2.2.2.2 a w ha⟩
  · intro x a b u v ha hb hab hu hv
    rcases Nat.lt_or_eq_of_le hab with hab | rfl
    · have := hss a b x x u v hab ((hown a x).1 ha) ((hown b x).1 hb) hu hv; omega
    · rw [hu] at hv; cases hv; exact Nat.le_refl _
  · intro a x y w ha
    exact (hsrc a x y w ha).2.2.2.2.1
  · intro x y i hi
    obtain ⟨a, hal, rfl, rfl, rfl⟩ := (hA x y i).1 hi
    rfl

theorem preCh {n M : Nat} {tail head weight : List Nat} {inp : ArcCols} {A0 : ArcMap} {fo C : List Nat} {s : BuildState}
    (hs : BState n M A0 C s) (hC : IsOrder n C) (hsm : s.Small) (hL : s.Light M) (hM : M < u32)
    (hA : ∀ x y i, A0 x y = some i → i.mid = invalidId ∧ ∃ a, listArcs inp.tail inp.head inp.weight a x y i.weight)
    (hall : ∀ a x y w, listArcs tail head weight a x y w → x ≠ y → ∃ i, A0 x y = some i ∧ i.weight ≤ w)
    (hpw : inp.tail.Pairwise (· ≤ ·)) (ef : invertVector inp.tail n = some fo)
    (hin : InputOk n (listArcs tail head weight) inp fo) :
    PreCh n (listArcs tail head weight) inp s.fwd s.bwd ∧
      ∀ x y w m, s.fwd.Row x y w m ∨ s.bwd.Row x y w m → x < n ∧ y < n ∧ C.idxOf x < C.idxOf y := by
  obtain ⟨A, hg, _, _, okf, okb, hI⟩ := hs
  have hR := hI.rows hC (fun x y i h => (hg.dom x y i h).1)
  refine ⟨⟨okf, okb, hsm.1, hsm.2, ?_, ⟨_, A0, hR, fun x y i hi => (hA x y i hi).2, hall⟩, hpw, fo, ef, hin⟩, ?_⟩
  · rintro x y w m (⟨j, _, _, h3, _⟩ | ⟨j, _, _, h3, _⟩)
    · have := hL.1 w (List.mem_of_getElem? h3); omega
    · have := hL.2 w (List.mem_of_getElem? h3); omega
  · rintro x y w m (h | h)
    · exact hR.hier.fUp x y w ⟨m, h⟩
    · exact hR.hier.bUp x y w ⟨m, h⟩

theorem PreCh.congr {n : Nat} {In : ArcRel} {inp : ArcCols} {f b f' b' : ChRows} (h : PreCh n In inp f b)
    (okF : f'.Ok) (okB : b'.Ok) (lf : f'.head.length = f.head.length) (lb : b'.head.length = b.head.length)
    (hf : ∀ x y w m, f'.Row x y w m ↔ f.Row x y w m) (hb : ∀ x y w m, b'.Row x y w m ↔ b.Row x y w m) :
    PreCh n In inp f' b' := by
  have e1 : f'.Row = f.Row := by funext x y w m; exact propext (hf x y w m)
  have e2 : b'.Row = b.Row := by funext x y w m; exact propext (hb x y w m)
  have := h.sizeF
  have := h.sizeB
  exact ⟨okF, okB, by omega, by omega, by rw [e1, e2]; exact h.light, by rw [e1, e2]; exact h.rows, h.inpTail, h.inp⟩

/-- The rows of a finished contraction become a hierarchy whatever the rest of the construction reads. -/
theorem build_tail {n : Nat} {inp : ArcCols} {In : ArcRel} {C rank : List Nat} {s : BuildState}
    (hn : n ≤ MinIDQueue.maxIds) (hpre : PreCh n In inp s.fwd s.bwd)
    (hrows : ∀ x y w m, s.fwd.Row x y w m ∨ s.bwd.Row x y w m → x < n ∧ y < n ∧ C.idxOf x < C.idxOf y)
    (hrl : rank.length = n) (hrk : ∀ x, x < n → rd rank x = some (C.idxOf x)) (jf jb : Nat → Word) :
    ∃ ffo f bfo b rank' order' ch, sortRows n s.fwd = some (ffo, f) ∧ sortRows n s.bwd = some (bfo, b) ∧
      optimizeOrderForCache rank ffo f.head bfo b.head = some (rank', order') ∧
      finishCh n inp rank' order' f b jf jb = some ch ∧ ChOk n In ch ∧
      (∃ B, Unpackable ch.forward B) ∧ ∃ B, Unpackable ch.backward B := by
  have hn' : n ≤ invalidId := by
    have : MinIDQueue.maxIds = 1073741824 := rfl
    have : invalidId = 4294967295 := rfl
    omega
  obtain ⟨tf, hf, _⟩ := hpre.okF.forall_of_rows (P := (· < n)) (Q := (· < n)) (S := fun _ => True)
    (fun x y w m hr => ⟨(hrows x y w m (Or.inl hr)).1, (hrows x y w m (Or.inl hr)).2.1, trivial⟩)
  obtain ⟨tb, hb, _⟩ := hpre.okB.forall_of_rows (P := (· < n)) (Q := (· < n)) (S := fun _ => True)
    (fun x y w m hr => ⟨(hrows x y w m (Or.inr hr)).1, (hrows x y w m (Or.inr hr)).2.1, trivial⟩)
  obtain ⟨ffo, f, esf, sf, lf, rf⟩ := sortRows_spec hpre.okF tf hf
  obtain ⟨bfo, b, esb, sb, lb, rb⟩ := sortRows_spec hpre.okB tb hb
  have headF : ∀ x y, HeadOf ffo f.head x y ↔ ∃ w m, s.fwd.Row x y w m := by
    intro x y
    constructor
    · rintro ⟨a, ha, hy⟩
      obtain ⟨y', w, m, _, e2, _, _, hr, _⟩ := sf.row ha
      have : some y = some y' := hy.symm.trans e2
      cases this
      exact ⟨w, m, (rf _ _ _ _).1 hr⟩
    · rintro ⟨w, m, hr⟩
      obtain ⟨j, g1, g2, _⟩ := (rf _ _ _ _).2 hr
      exact ⟨j, (sf.own j x).2 g1, g2⟩
  have headB : ∀ x y, HeadOf bfo b.head x y ↔ ∃ w m, s.bwd.Row x y w m := by
    intro x y
    constructor
    · rintro ⟨a, ha, hy⟩
      obtain ⟨y', w, m, _, e2, _, _, hr, _⟩ := sb.row ha
      have : some y = some y' := hy.symm.trans e2
      cases this
      exact ⟨w, m, (rb _ _ _ _).1 hr⟩
    · rintro ⟨w, m, hr⟩
      obtain ⟨j, g1, g2, _⟩ := (rb _ _ _ _).2 hr
      exact ⟨j, (sb.own j x).2 g1, g2⟩
  obtain ⟨rank2, order2, eo2, hpo, hlo, hpr, hlr, hinv, hup⟩ := optimizeOrder_spec (rank := rank)
    (ord := fun x => C.idxOf x) hn hrl hrk sf.csr sb.csr (by
      rintro x y (hxy | hxy)
      · obtain ⟨w, m, hr⟩ := (headF x y).1 hxy
        exact (hrows x y w m (Or.inl hr)).2.2
      · obtain ⟨w, m, hr⟩ := (headB x y).1 hxy
        exact (hrows x y w m (Or.inr hr)).2.2)
  obtain ⟨ch', e', hok, _, _, hU⟩ := finishCh_spec (hpre.congr sf.ok sb.ok lf lb rf rb) hn' hpr hlr hlo hinv (by
    intro x y w m hr
    have hh : HeadOf ffo f.head x y ∨ HeadOf bfo b.head x y := by
      rcases hr with hr | hr
      · exact Or.inl ((headF x y).2 ⟨w, m, (rf _ _ _ _).1 hr⟩)
      · exact Or.inr ((headB x y).2 ⟨w, m, (rb _ _ _ _).1 hr⟩)
    have hxy : x < n ∧ y < n := by
      rcases hr with hr | hr
      · have := hrows x y w m (Or.inl ((rf _ _ _ _).1 hr)); omega
      · have := hrows x y w m (Or.inr ((rb _ _ _ _).1 hr)); omega
    exact hup x y _ _ hh (rd_fn (by omega)) (rd_fn (by omega))) jf jb
  exact ⟨ffo, f, bfo, b, rank2, order2, ch', esf, esb, eo2, e', hok, hU⟩

theorem build_ok' {n M maxPop : Nat} {tail head weight : List Nat} {asserts : Bool} {jf jb : Nat → Word} {ch : Ch}
    (hn : n ≤ MinIDQueue.maxIds) (h1 : head.length = tail.length) (h2 : weight.length = tail.length)
    (ht : ∀ x ∈ tail, x < n) (hh : ∀ x ∈ head, x < n) (hsize : tail.length ≤ invalidId)
    (hw : ∀ w ∈ weight, w ≤ 2 * M) (h12 : 12 * M < u32)
    (h : Ch.build asserts n tail head weight maxPop jf jb = some ch) (hL : ch.Light M) :
    ChOk n (listArcs tail head weight) ch ∧ (∃ B, Unpackable ch.forward B) ∧ ∃ B, Unpackable ch.backward B := by
  have hn' : n ≤ invalidId := by
    have : MinIDQueue.maxIds = 1073741824 := rfl
    have : invalidId = 4294967295 := rfl
    omega
  unfold Ch.build at h
  rw [identityPermutation_eq] at h
  obtain ⟨inp, g, A0, fo, er, eg, hg, hA, hAw, hall, hpw, ef, hin, _⟩ := input_spec h1 h2 ht hh hsize
  simp only [er, eg, Option.bind_eq_bind, Option.bind_eq_some_iff, Option.bind_some] at h
  obtain ⟨_, _, ⟨rank, order, s⟩, eb, ⟨ffo, f⟩, esf, ⟨bfo, b⟩, esb, ⟨rank', order'⟩, eo, h⟩ := h
  simp only at esf esb eo h
  have hwt := finishCh_weight h
  have hLs : s.Light M := ⟨fun w hw => hL.1 w (hwt.1 w (sortRows_weight esf w hw)),
    fun w hw => hL.2 w (hwt.2 w (sortRows_weight esb w hw))⟩
  obtain ⟨C, hs, hC, hrl, hrk⟩ := buildChAndOrder_spec (M := M) hn hg (fun x y i hi => hw _ (hAw x y i hi))
    (fun x y i hi => (hA x y i hi).1) h12 eb hLs
  obtain ⟨hpre, hrows⟩ := preCh hs hC (buildChAndOrder_small eb) hLs (by omega) hA hall hpw ef hin
  obtain ⟨ffo', f', bfo', b', rank2, order2, ch', esf', esb', eo2, e', hok, hU⟩ := build_tail hn hpre hrows hrl hrk jf jb
  rw [esf] at esf'; cases esf'
  rw [esb] at esb'; cases esb'
  rw [eo] at eo2; cases eo2
  rw [h] at e'; cases e'
  exact ⟨hok, hU⟩

theorem build_ok {n M maxPop : Nat} {tail head weight : List Nat} {asserts : Bool} {jf jb : Nat → Word} {ch : Ch}
    (hn : n ≤ MinIDQueue.maxIds) (h1 : head.length = tail.length) (h2 : weight.length = tail.length)
    (ht : ∀ x ∈ tail, x < n) (hh : ∀ x ∈ head, x < n) (hsize : tail.length ≤ invalidId)
    (hw : ∀ w ∈ weight, w ≤ 2 * M) (h12 : 12 * M < u32)
    (h : Ch.build asserts n tail head weight maxPop jf jb = some ch) (hL : ch.Light M) :
    ChOk n (listArcs tail head weight) ch := (build_ok' hn h1 h2 ht hh hsize hw h12 h hL).1

theorem buildGivenRank_ok' {n M maxPop : Nat} {rank tail head weight : List Nat} {asserts : Bool} {jf jb : Nat → Word}
    {ch : Ch} (hn : n ≤ MinIDQueue.maxIds) (hp : IsPerm rank) (hl : rank.length = n)
    (h1 : head.length = tail.length) (h2 : weight.length = tail.length)
    (ht : ∀ x ∈ tail, x < n) (hh : ∀ x ∈ head, x < n) (hsize : tail.length ≤ invalidId)
    (hw : ∀ w ∈ weight, w ≤ 2 * M) (h8 : 8 * M < u32)
    (h : Ch.buildGivenRank asserts rank tail head weight maxPop jf jb = some ch) (hL : ch.Light M) :
    ChOk n (listArcs tail head weight) ch ∧ ch.rank = rank ∧ (∃ B, Unpackable ch.forward B) ∧ ∃ B, Unpackable ch.backward B := by
  have hn' : n ≤ invalidId := by
    have : MinIDQueue.maxIds = 1073741824 := rfl
    have : invalidId = 4294967295 := rfl
    omega
  unfold Ch.buildGivenRank at h
  rw [identityPermutation_eq, hl] at h
  obtain ⟨inp, g, A0, fo, er, eg, hg, hA, hAw, hall, hpw, ef, hin, _⟩ := input_spec h1 h2 ht hh hsize
  simp only [er, eg, Option.bind_eq_bind, Option.bind_eq_some_iff, Option.bind_some] at h
  obtain ⟨_, _, ⟨order, s⟩, eb, h⟩ := h
  simp only at h
  have hwt := finishCh_weight h
  have hLs : s.Light M := ⟨fun w hw => hL.1 w (hwt.1 w hw), fun w hw => hL.2 w (hwt.2 w hw)⟩
  unfold buildChGivenRank at eb
  simp only [Option.bind_eq_bind, Option.bind_eq_some_iff] at eb
  obtain ⟨order', eo, s', es, eb⟩ := eb
  cases eb
  rw [hg.lenOut] at es
  obtain ⟨order2, eo2, hl2, hp2, hinv⟩ := invertPermutation_spec hp
  rw [eo] at eo2; cases eo2
  have hs := givenRank_loop hn hg (fun x y i hi => hw _ (hAw x y i hi))
    (fun x y i hi => (hA x y i hi).1) h8 hp2 (by omega) es hLs
  have hC : IsOrder n order := ⟨hp2.nodup, fun x => by
    constructor
    · intro hx; have := hp2.lt x hx; omega
    · intro hx; exact hp2.mem (by omega)⟩
  have hinv' : ∀ i x, i < n → (rd rank x = some i ↔ rd order i = some x) := by
    intro i x hi
    constructor
    · intro hx
      exact (hinv x i (by have := rd_some_lt hx; omega)).2 hx
    · intro hx
      obtain ⟨x', hx', hlt⟩ := hp2.rd (i := i) (by omega)
      have : some x = some x' := hx.symm.trans hx'
      cases this
      exact (hinv x i (by omega)).1 hx
  obtain ⟨hpre, hrows⟩ := preCh hs hC (givenRank_small es (empty_small _ _)) hLs (by omega) hA hall hpw ef hin
  have hidx : ∀ x, x < n → fn rank x = order.idxOf x := by
    intro x hx
    obtain ⟨i, hi, hi'⟩ := hp.rd (i := x) (by omega)
    rw [fn_of_rd hi]
    exact (idxOf_eq_of_rd hp2.nodup ((hinv' i x (by omega)).1 hi)).symm
  obtain ⟨ch', e', hok, hr, _, hU⟩ := finishCh_spec hpre hn' hp hl (by omega) hinv' (by
    intro x y w m hr
    obtain ⟨a1, a2, a3⟩ := hrows x y w m hr
    rw [hidx x a1, hidx y a2]; exact a3) jf jb
  rw [h] at e'; cases e'
  exact ⟨hok, hr, hU⟩

theorem buildGivenRank_ok {n M maxPop : Nat} {rank tail head weight : List Nat} {asserts : Bool} {jf jb : Nat → Word}
    {ch : Ch} (hn : n ≤ MinIDQueue.maxIds) (hp : IsPerm rank) (hl : rank.length = n)
    (h1 : head.length = tail.length) (h2 : weight.length = tail.length)
    (ht : ∀ x ∈ tail, x < n) (hh : ∀ x ∈ head, x < n) (hsize : tail.length ≤ invalidId)
    (hw : ∀ w ∈ weight, w ≤ 2 * M) (h8 : 8 * M < u32)
    (h : Ch.buildGivenRank asserts rank tail head weight maxPop jf jb = some ch) (hL : ch.Light M) :
    ChOk n (listArcs tail head weight) ch ∧ ch.rank = rank :=
  let r := buildGivenRank_ok' hn hp hl h1 h2 ht hh hsize hw h8 h hL
  ⟨r.1, r.2.1⟩

end RK
