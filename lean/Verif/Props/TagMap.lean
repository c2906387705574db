import Verif.Proof.TagMap
/-!
# C39: TagMap

The specification is an association list: `kv.find? (·.1 = key)` is the first pair with this key.
The calls are modelled with `none` for undefined behaviour; a lookup yields `some none` for the null pointer.
-/
namespace RK

variable {V : Type}

/-- A call that changes the map. -/
inductive TagOp (V : Type) where
  | build (kv : List (List Byte × V))
  | clear

/-- At most 65536 pairs per call of `build`. -/
def TagOp.Ok : TagOp V → Prop
  | .build kv => kv.length ≤ 65536
  | .clear => True

/-- The calls in order. -/
def TagMap.run (m : TagMap V) : List (TagOp V) → Option (TagMap V)
  | [] => some m
  | .build kv :: ops => (m.build kv).bind (fun m => m.run ops)
  | .clear :: ops => m.clear.bind (fun m => m.run ops)

/-- What the map should contain after the calls: the pairs of the last call. -/
def tagContent (kv : List (List Byte × V)) : List (TagOp V) → List (List Byte × V)
  | [] => kv
  | .build kv :: ops => tagContent kv ops
  | .clear :: ops => tagContent [] ops

theorem tagRun (ops : List (TagOp V)) : ∀ (m : TagMap V) (kv : List (List Byte × V)), TagClean m →
    (∀ key, m.get key = some ((kv.find? (fun p => p.1 = key)).map Prod.snd)) → (∀ op ∈ ops, op.Ok) →
    ∃ m', m.run ops = some m' ∧ TagClean m' ∧
      ∀ key, m'.get key = some (((tagContent kv ops).find? (fun p => p.1 = key)).map Prod.snd) := by
  induction ops with
  | nil => exact fun m kv h1 h2 _ => ⟨m, rfl, h1, h2⟩
  | cons op ops ih =>
    intro m kv h1 h2 hok
    have hops : ∀ op ∈ ops, op.Ok := fun o ho => hok o (List.mem_cons_of_mem _ ho)
    cases op with
    | build kv' =>
      have hn : kv'.length ≤ 65536 := hok _ List.mem_cons_self
      obtain ⟨m', l, prev, e, hc, _, _⟩ := tagBuild_spec h1 hn
      obtain ⟨m2, e2, g1, g2⟩ := ih m' kv' hc (get_spec h1 hn e) hops
      exact ⟨m2, by rw [TagMap.run, e]; exact e2, g1, g2⟩
    | clear =>
      obtain ⟨m', e, q1, q2, q3, q4⟩ := tagClear_spec h1
      obtain ⟨m2, e2, g1, g2⟩ := ih m' [] (tagClean_clear h1 e) (fun key => by
        obtain ⟨h, eh, hh⟩ := strHash_spec key
        unfold TagMap.get
        rw [q3, q4]
        simp only [eh, rd_replicate hh, Option.bind_eq_bind, Option.bind_some]
        rfl) hops
      exact ⟨m2, by rw [TagMap.run, e]; exact e2, g1, g2⟩

/-- C39: for every history of calls to `build` (with at most 65536 pairs, distinct or duplicate keys, any hash collisions)
and `clear` on a new map, the behaviour is defined and `map[key]` is the value of the first pair with this key in the
last call of `build` since which there was no `clear`, and null if there is none; for every key. -/
theorem C39_lookup_after_any_history (ops : List (TagOp V)) (h : ∀ op ∈ ops, op.Ok) :
    ∃ m : TagMap V, TagMap.new.run ops = some m ∧
      ∀ key, m.get key = some (((tagContent [] ops).find? (fun p => p.1 = key)).map Prod.snd) := by
  obtain ⟨m, e, _, h2⟩ := tagRun ops TagMap.new [] tagClean_new (fun key => by
    obtain ⟨h, eh, hh⟩ := strHash_spec key
    unfold TagMap.get TagMap.new
    simp only [eh, rd_replicate hh, Option.bind_eq_bind, Option.bind_some]
    rfl) h
  exact ⟨m, e, h2⟩

/-- C39: iterating over the map after `build` visits every pair exactly once; `size` and `empty` agree with that. -/
theorem C39_iteration (ops : List (TagOp V)) (h : ∀ op ∈ ops, op.Ok) (kv : List (List Byte × V)) (hn : kv.length ≤ 65536) :
    ∃ m : TagMap V, TagMap.new.run (ops ++ [.build kv]) = some m ∧ m.entry.Perm kv ∧ m.size = kv.length ∧
      (m.empty = true ↔ kv = []) := by
  obtain ⟨m, e, hc, _⟩ := tagRun ops TagMap.new [] tagClean_new (fun key => by
    obtain ⟨h, eh, hh⟩ := strHash_spec key
    unfold TagMap.get TagMap.new
    simp only [eh, rd_replicate hh, Option.bind_eq_bind, Option.bind_some]
    rfl) h
  obtain ⟨m', l, prev, e', hc', _, _⟩ := tagBuild_spec hc hn
  have hp := build_perm hc hn e'
  refine ⟨m', ?_, hp, hp.length_eq, ?_⟩
  · have key : ∀ (ops : List (TagOp V)) (m0 m : TagMap V), m0.run ops = some m → m0.run (ops ++ [.build kv]) = m.build kv := by
      intro ops
      induction ops with
      | nil =>
        intro m0 m h
        injection h with h
        subst h
        show (m0.build kv).bind some = m0.build kv
        cases m0.build kv <;> rfl
      | cons op ops ih =>
        intro m0 m h
        cases op with
        | build kv' =>
          obtain ⟨m1, e1, h1⟩ := Option.bind_eq_some_iff.1 h
          show (m0.build kv').bind _ = _
          rw [e1]; exact ih m1 m h1
        | clear =>
          obtain ⟨m1, e1, h1⟩ := Option.bind_eq_some_iff.1 h
          show (m0.clear).bind _ = _
          rw [e1]; exact ih m1 m h1
    rw [key ops _ m e]; exact e'
  · unfold TagMap.empty
    rw [List.isEmpty_iff]
    constructor
    · intro h0
      rw [h0] at hp
      exact hp.nil_eq.symm
    · intro h0
      rw [h0] at hp
      exact hp.eq_nil

/-- C39 is violated for more than 65536 pairs: whatever the pairs are, a key that does not occur in the first 65536 pairs
is never found. -/
theorem C39_more_than_65536_violated {m m' : TagMap V} {kv : List (List Byte × V)} (h : m.build kv = some m') (key : List Byte)
    (hk : ∀ p ∈ kv.take 65536, p.1 ≠ key) (v : V) : m'.get key ≠ some (some v) := by
  have hent := build_entries h
  have key' : ∀ (n i : Nat), tagFind m'.entry key i n ≠ some (some v) := by
    intro n
    induction n with
    | zero => intro i e; cases e
    | succ n ih =>
      intro i e
      rw [tagFind] at e
      obtain ⟨⟨k, w⟩, hr, e⟩ := Option.bind_eq_some_iff.1 e
      have := hk _ (hent _ (rd_mem hr))
      simp only [if_neg this] at e
      exact ih _ e
  intro e
  unfold TagMap.get at e
  obtain ⟨_, _, e⟩ := Option.bind_eq_some_iff.1 e
  obtain ⟨_, _, e⟩ := Option.bind_eq_some_iff.1 e
  obtain ⟨_, _, e⟩ := Option.bind_eq_some_iff.1 e
  exact key' _ _ e

/-- `clear` removes the pairs from lookups only: the size stays. -/
theorem C39_clear_keeps_size (m' : TagMap V) (kv : List (List Byte × V)) (hn : kv.length ≤ 65536)
    (h : TagMap.new.run [.build kv, .clear] = some (m' : TagMap V)) : m'.size = kv.length := by
  obtain ⟨m1, e1, h⟩ := Option.bind_eq_some_iff.1 h
  obtain ⟨m2, e2, h⟩ := Option.bind_eq_some_iff.1 h
  injection h with h
  subst h
  obtain ⟨m3, l, prev, e3, hc, _, _⟩ := tagBuild_spec (V := V) tagClean_new hn
  rw [e1] at e3
  injection e3 with e3
  subst e3
  obtain ⟨m4, e4, _, q2, _⟩ := tagClear_spec hc
  rw [e2] at e4
  injection e4 with e4
  subst e4
  unfold TagMap.size
  rw [q2]
  exact (build_perm tagClean_new hn e1).length_eq

/-- The keys `one` and `OnE` have the same hash. The first of equal keys wins. -/
example : (strHash [111#8, 110#8, 101#8]) = strHash [79#8, 110#8, 69#8] ∧ [111#8, 110#8, 101#8] ≠ [79#8, 110#8, 69#8] := by decide

set_option maxRecDepth 100000 in
example : ((TagMap.new.build [([79#8, 110#8, 69#8], 1), ([111#8, 110#8, 101#8], 2), ([111#8, 110#8, 101#8], 3)]).bind
    (fun m => m.get [111#8, 110#8, 101#8])) = some (some 2) := by decide +kernel

end RK
