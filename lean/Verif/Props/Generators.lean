import Verif.Proof.Generators
import Verif.Props.ChFile
import Verif.Props.VectorIO
/-! # C77: generated vectors, and the numbers of a stored hierarchy -/
namespace RK.Props
open RK _root_.Spec

/-- What is assumed of the random numbers: a number drawn between `a` and `b` is neither smaller than `a` nor larger than `b`. -/
def WithinBounds {G : Type} (R : RandomInts G) : Prop := ∀ a b g, a ≤ b → a ≤ (R.draw a b g).1 ∧ (R.draw a b g).1 ≤ b

/-- A node list has the requested length and consists of nodes. The number of nodes is at most `2^31`. This holds whether or
not there is a file with the given name, and whatever it contains.
Partial: at most `2^31` nodes, see `C77_node_count_undefined`. -/
theorem C77_random_nodes_partial {G : Type} (hardened : Bool) (R : RandomInts G) (hR : WithinBounds R) (nodeArg countArg seedArg : Text)
    (file : Option (List Byte)) (n k s : Nat) (hn : StartsWithNumber nodeArg n) (hk : StartsWithNumber countArg k) (hs : StartsWithNumber seedArg s)
    (h1 : 1 ≤ n) (h2 : n ≤ 2 ^ 31) (h3 : k < 2 ^ 32) (h4 : s < 2 ^ 32) :
    ∃ v, toolRandomNodes hardened R nodeArg file countArg seedArg = .ok v ∧ v.length = k ∧ ∀ x ∈ v, x < n := by
  refine ⟨drawVector R ((n : Int) - 1) k (R.seed s), ?_, drawVector_length _ _ _ _, drawVector_lt hR h1 h2 _ _⟩
  unfold toolRandomNodes
  rw [argCount_number file hn (by omega), Res.ok_bind, argUnsigned_small hk h3, Res.ok_bind, argUnsigned_small hs h4, Res.ok_bind,
    distributionUpTo_ok h1 h2, Res.ok_bind]

/-- The same if the number of nodes is given by a vector with one element per node. -/
theorem C77_random_nodes_of_vector {G : Type} (hardened : Bool) (R : RandomInts G) (hR : WithinBounds R) (nodeArg countArg seedArg : Text)
    (file : Option (List Byte)) (u : List Nat) (k s : Nat) (hl : '\n' ∉ nodeArg) (hn : ∀ x, ¬ StartsWithNumber nodeArg x)
    (hf : loadVector hardened podUnsigned file = .ok u) (hk : StartsWithNumber countArg k) (hs : StartsWithNumber seedArg s)
    (h1 : 1 ≤ u.length) (h2 : u.length ≤ 2 ^ 31) (h3 : k < 2 ^ 32) (h4 : s < 2 ^ 32) :
    ∃ v, toolRandomNodes hardened R nodeArg file countArg seedArg = .ok v ∧ v.length = k ∧ ∀ x ∈ v, x < u.length := by
  refine ⟨drawVector R ((u.length : Int) - 1) k (R.seed s), ?_, drawVector_length _ _ _ _, drawVector_lt hR h1 h2 _ _⟩
  unfold toolRandomNodes
  rw [argCount_file hl hn hf (by omega), Res.ok_bind, argUnsigned_small hk h3, Res.ok_bind, argUnsigned_small hs h4, Res.ok_bind,
    distributionUpTo_ok h1 h2, Res.ok_bind]

/-- A longer list with the same seed extends a shorter one. -/
theorem C77_random_nodes_extend {G : Type} (hardened : Bool) (R : RandomInts G) (nodeArg countArg countArg' seedArg : Text)
    (file : Option (List Byte)) (k k' : Nat) (v v' : List Nat) (hk : StartsWithNumber countArg k) (hk' : StartsWithNumber countArg' k')
    (hkk : k ≤ k') (h3 : k' < 2 ^ 32) (hv : toolRandomNodes hardened R nodeArg file countArg seedArg = .ok v)
    (hv' : toolRandomNodes hardened R nodeArg file countArg' seedArg = .ok v') : v'.take k = v := by
  unfold toolRandomNodes at hv hv'
  rw [Res.bind_eq_ok] at hv hv'
  obtain ⟨n, en, hv⟩ := hv
  obtain ⟨n', en', hv'⟩ := hv'
  rw [en] at en'
  cases en'
  rw [argUnsigned_small hk (by omega), Res.ok_bind, Res.bind_eq_ok] at hv
  rw [argUnsigned_small hk' h3, Res.ok_bind, Res.bind_eq_ok] at hv'
  obtain ⟨s, es, hv⟩ := hv
  obtain ⟨s', es', hv'⟩ := hv'
  rw [es] at es'
  cases es'
  rw [Res.bind_eq_ok] at hv hv'
  obtain ⟨b, eb, hv⟩ := hv
  obtain ⟨b', eb', hv'⟩ := hv'
  rw [eb] at eb'
  cases eb'
  cases hv
  cases hv'
  obtain ⟨m, rfl⟩ := Nat.exists_eq_add_of_le hkk
  exact drawVector_take R b k m _

/-- Test queries: as many sources as targets, as many as requested, all of them nodes. -/
theorem C77_test_queries {G : Type} (R : RandomInts G) (hR : WithinBounds R) (nodeArg countArg seedArg : Text) (n k s : Nat)
    (hn : StartsWithNumber nodeArg n) (hk : StartsWithNumber countArg k) (hs : StartsWithNumber seedArg s)
    (h1 : 1 ≤ n) (h2 : n ≤ 2 ^ 31) (h3 : k < 2 ^ 32) (h4 : s < 2 ^ 32) :
    ∃ source target, toolTestQueries R nodeArg countArg seedArg = .ok (source, target) ∧ source.length = k ∧ target.length = k ∧
      (∀ x ∈ source, x < n) ∧ ∀ x ∈ target, x < n := by
  have hb := drawPairs_lt (R := R) hR h1 h2 k (R.seed s)
  refine ⟨(drawPairs R ((n : Int) - 1) k (R.seed s)).map Prod.fst, (drawPairs R ((n : Int) - 1) k (R.seed s)).map Prod.snd, ?_,
    by rw [List.length_map, drawPairs_length], by rw [List.length_map, drawPairs_length], ?_, ?_⟩
  · unfold toolTestQueries
    rw [argUnsigned_small hn (by omega), Res.ok_bind, argUnsigned_small hk h3, Res.ok_bind, argUnsigned_small hs h4, Res.ok_bind,
      distributionUpTo_ok h1 h2, Res.ok_bind]
  · intro x hx
    obtain ⟨p, hp, rfl⟩ := List.mem_map.1 hx
    exact (hb p hp).1
  · intro x hx
    obtain ⟨p, hp, rfl⟩ := List.mem_map.1 hx
    exact (hb p hp).2

/-- Source and target of a query are independent draws: the sources and targets, in turn, are the elements of the node list of
twice the length with the same seed. -/
theorem C77_test_queries_independent {G : Type} (hardened : Bool) (R : RandomInts G) (nodeArg countArg countArg' seedArg : Text)
    (file : Option (List Byte)) (n k : Nat) (source target v : List Nat) (hn : StartsWithNumber nodeArg n) (h2 : n < 2 ^ 32)
    (hk : StartsWithNumber countArg k) (hk' : StartsWithNumber countArg' (2 * k : Nat)) (h3 : 2 * k < 2 ^ 32)
    (hq : toolTestQueries R nodeArg countArg seedArg = .ok (source, target))
    (hv : toolRandomNodes hardened R nodeArg file countArg' seedArg = .ok v) :
    (source.zip target).flatMap (fun p => [p.1, p.2]) = v := by
  unfold toolTestQueries at hq
  unfold toolRandomNodes at hv
  rw [argUnsigned_small hn h2, Res.ok_bind, argUnsigned_small hk (by omega), Res.ok_bind, Res.bind_eq_ok] at hq
  rw [argCount_number file hn h2, Res.ok_bind, argUnsigned_small hk' h3, Res.ok_bind, Res.bind_eq_ok] at hv
  obtain ⟨s, es, hq⟩ := hq
  obtain ⟨s', es', hv⟩ := hv
  rw [es] at es'
  cases es'
  rw [Res.bind_eq_ok] at hv hq
  obtain ⟨b, eb, hq⟩ := hq
  obtain ⟨b', eb', hv⟩ := hv
  rw [eb] at eb'
  cases eb'
  cases hv
  cases hq
  have e : ∀ l : List (Nat × Nat), (l.map Prod.fst).zip (l.map Prod.snd) = l := by
    intro l
    induction l with
    | nil => rfl
    | cons p l ih => simp only [List.map_cons, List.zip_cons_cons, ih]
  rw [e, drawPairs_flat]

/-- Departure times lie within the period, which is stored in a file.
Partial: a period of at most `2^31`, see `C77_period_undefined`. -/
theorem C77_random_times_partial {G : Type} (hardened : Bool) (R : RandomInts G) (hR : WithinBounds R) (countArg seedArg : Text)
    (countFile periodFile : Option (List Byte)) (k s period : Nat) (hp : loadValue hardened podUnsigned periodFile = .ok period)
    (hk : (StartsWithNumber countArg k ∧ k < 2 ^ 32) ∨
      ('\n' ∉ countArg ∧ (∀ x, ¬ StartsWithNumber countArg x) ∧ ∃ u, loadVector hardened podUnsigned countFile = .ok u ∧ u.length = k ∧ k < 2 ^ 32))
    (hs : StartsWithNumber seedArg s) (h1 : 1 ≤ period) (h2 : period ≤ 2 ^ 31) (h4 : s < 2 ^ 32) :
    ∃ v, toolRandomTimes hardened R countArg countFile seedArg periodFile = .ok v ∧ v.length = k ∧ ∀ x ∈ v, x < period := by
  refine ⟨drawVector R ((period : Int) - 1) k (R.seed s), ?_, drawVector_length _ _ _ _, drawVector_lt hR h1 h2 _ _⟩
  have hc : argCount hardened countArg countFile = .ok k := by
    rcases hk with ⟨hk, h3⟩ | ⟨hl, hn, u, hu, rfl, h3⟩
    · exact argCount_number _ hk h3
    · exact argCount_file hl hn hu h3
  unfold toolRandomTimes
  rw [hc, Res.ok_bind, argUnsigned_small hs h4, Res.ok_bind, hp, Res.ok_bind, distributionUpTo_ok h1 h2, Res.ok_bind]

/-- A constant vector. Any number of 64 bits is accepted for the size and the value, also a negative one, and is reduced to 32 bits. -/
theorem C77_constant_vector (sizeArg valueArg : Text) (x y : Int) (hx : StartsWithNumber sizeArg x) (hy : StartsWithNumber valueArg y)
    (hx' : -(2 ^ 64) < x ∧ x < 2 ^ 64) (hy' : -(2 ^ 64) < y ∧ y < 2 ^ 64) :
    toolConstantVector sizeArg valueArg = .ok (List.replicate (x % 2 ^ 32).toNat (y % 2 ^ 32).toNat) := by
  unfold toolConstantVector
  rw [argUnsigned_number hx hx'.1 hx'.2, Res.ok_bind, argUnsigned_number hy hy'.1 hy'.2, Res.ok_bind]
  rfl

/-- In particular a size and a value that fit are what they say. -/
theorem C77_constant_vector_fits (sizeArg valueArg : Text) (k y : Nat) (hk : StartsWithNumber sizeArg k) (hy : StartsWithNumber valueArg y)
    (h1 : k < 2 ^ 32) (h2 : y < 2 ^ 32) : toolConstantVector sizeArg valueArg = .ok (List.replicate k y) := by
  unfold toolConstantVector
  rw [argUnsigned_small hk h1, Res.ok_bind, argUnsigned_small hy h2, Res.ok_bind]

/-- The argument `a` is not accepted as a number: it does not start with one, or with one of more than 64 bits. -/
def NoNumber (a : Text) : Prop := ('\n' ∉ a ∧ ∀ x, ¬ StartsWithNumber a x) ∨ ∃ x, StartsWithNumber a x ∧ (x ≤ -(2 ^ 64) ∨ 2 ^ 64 ≤ x)

theorem NoNumber.error {a : Text} (h : NoNumber a) : argUnsigned a = .error := by
  rcases h with ⟨hl, h⟩ | ⟨x, hx, h⟩
  · exact argUnsigned_none hl h
  · refine argUnsigned_large hx ?_
    rcases h with h | h
    · intro ⟨h1, _⟩
      have : x ≤ -18446744073709551616 := h
      omega
    · intro ⟨_, h1⟩
      have : 18446744073709551616 ≤ x := h
      omega

/-- Arguments that are no numbers are rejected; nothing is generated. The number of nodes may be replaced by a file, which then
has to exist. -/
theorem C77_rejects {G : Type} (R : RandomInts G) (a b c : Text) (h : NoNumber a) :
    toolTestQueries R a b c = .error ∧ toolConstantVector a b = .error ∧ (∀ hardened, toolRandomNodes hardened R a none b c = .error) ∧
    (∀ hardened f, toolRandomTimes hardened R a none c f = .error) ∧
    (∀ n k : Nat, StartsWithNumber b n → n < 2 ^ 32 → StartsWithNumber c k → k < 2 ^ 32 → toolConstantVector b a = .error ∧
      toolTestQueries R b a c = .error ∧ toolTestQueries R b c a = .error ∧
      ∀ hardened f, toolRandomNodes hardened R b f a c = .error ∧ toolRandomNodes hardened R b f c a = .error ∧
        ∀ f', toolRandomTimes hardened R b f a f' = .error) := by
  have he := h.error
  have hc : ∀ hardened, argCount hardened a none = .error := by
    intro hardened
    unfold argCount
    rw [he]
    rfl
  refine ⟨?_, ?_, ?_, ?_, ?_⟩
  · unfold toolTestQueries; rw [he]; rfl
  · unfold toolConstantVector; rw [he]; rfl
  · intro hardened; unfold toolRandomNodes; rw [hc]; rfl
  · intro hardened f; unfold toolRandomTimes; rw [hc]; rfl
  · intro n k hn h1 hk h2
    have en := argUnsigned_small hn h1
    have ek := argUnsigned_small hk h2
    refine ⟨?_, ?_, ?_, ?_⟩
    · unfold toolConstantVector; rw [en, Res.ok_bind, he]; rfl
    · unfold toolTestQueries; rw [en, Res.ok_bind, he]; rfl
    · unfold toolTestQueries; rw [en, Res.ok_bind, ek, Res.ok_bind, he]; rfl
    · intro hardened f
      have ec := argCount_number (hardened := hardened) f hn h1
      refine ⟨?_, ?_, ?_⟩
      · unfold toolRandomNodes; rw [ec, Res.ok_bind, he]; rfl
      · unfold toolRandomNodes; rw [ec, Res.ok_bind, ek, Res.ok_bind, he]; rfl
      · intro f'; unfold toolRandomTimes; rw [ec, Res.ok_bind, he]; rfl

/-- Finding: for a graph without nodes, and for one with more than `2^31` nodes, the behaviour is undefined, even if no element
is requested. -/
theorem C77_node_count_undefined {G : Type} (hardened : Bool) (R : RandomInts G) (nodeArg countArg seedArg : Text) (file : Option (List Byte))
    (n k s : Nat) (hn : StartsWithNumber nodeArg n) (hk : StartsWithNumber countArg k) (hs : StartsWithNumber seedArg s)
    (h : n = 0 ∨ (2 ^ 31 < n ∧ n < 2 ^ 32)) (h3 : k < 2 ^ 32) (h4 : s < 2 ^ 32) :
    toolRandomNodes hardened R nodeArg file countArg seedArg = .ub ∧ toolTestQueries R nodeArg countArg seedArg = .ub := by
  have hlt : n < 4294967296 := by omega
  constructor
  · unfold toolRandomNodes
    rw [argCount_number file hn hlt, Res.ok_bind, argUnsigned_small hk h3, Res.ok_bind, argUnsigned_small hs h4, Res.ok_bind,
      distributionUpTo_ub h, Res.ub_bind]
  · unfold toolTestQueries
    rw [argUnsigned_small hn hlt, Res.ok_bind, argUnsigned_small hk h3, Res.ok_bind, argUnsigned_small hs h4, Res.ok_bind,
      distributionUpTo_ub h, Res.ub_bind]

/-- Finding: the same for a period of 0 or of more than `2^31`. -/
theorem C77_period_undefined {G : Type} (hardened : Bool) (R : RandomInts G) (countArg seedArg : Text) (countFile periodFile : Option (List Byte))
    (k s period : Nat) (hp : loadValue hardened podUnsigned periodFile = .ok period) (hk : StartsWithNumber countArg k)
    (hs : StartsWithNumber seedArg s) (h : period = 0 ∨ (2 ^ 31 < period ∧ period < 2 ^ 32)) (h3 : k < 2 ^ 32) (h4 : s < 2 ^ 32) :
    toolRandomTimes hardened R countArg countFile seedArg periodFile = .ub := by
  unfold toolRandomTimes
  rw [argCount_number countFile hk h3, Res.ok_bind, argUnsigned_small hs h4, Res.ok_bind, hp, Res.ok_bind, distributionUpTo_ub h, Res.ub_bind]

/-- The numbers printed for a stored hierarchy are those of the hierarchy. -/
theorem C77_examine (hardened : Bool) (pad : List Byte) (hp : pad.length = 4) (ch : Ch) (OF OB : List Bool)
    (h : Storable ch OF OB) (hh : hardened = false ∨ NoEmptyVectors ch)
    (hs : 3 * ch.rank.length + 2 + 4 * ch.forward.head.length + 4 * ch.backward.head.length < 2 ^ 32) (d : Disk) (ho : d.canOpen = true)
    (hr : 24 + 4 * (3 * ch.rank.length + 2 + 4 * ch.forward.head.length + 4 * ch.backward.head.length) +
      64 * ((ch.forward.head.length + 511) / 512) + 64 * ((ch.backward.head.length + 511) / 512) ≤ d.room) :
    ∃ f, saveCh hardened pad d ch = .ok f ∧
      toolExamineCh hardened (some f) = .ok (ch.rank.length, ch.forward.head.length, ch.backward.head.length) := by
  obtain ⟨f, ch', e1, e2, hsame⟩ := C35_file_round_trip_partial hardened pad hp ch OF OB h hh hs d ho hr
  refine ⟨f, e1, ?_⟩
  unfold toolExamineCh
  rw [e2, Res.ok_bind]
  obtain ⟨r, _, sf, sb⟩ := hsame
  rw [r, sf.2.1, sb.2.1]

/-- A random engine for the examples: a counter. -/
def counterInts : RandomInts Nat := ⟨fun s => s, fun a b g => (a + (g : Int) % (b - a + 1), g + 1)⟩

example : WithinBounds counterInts := by
  intro a b g h
  have h1 := Int.emod_nonneg (g : Int) (by omega : b - a + 1 ≠ 0)
  have h2 := Int.emod_lt_of_pos (g : Int) (by omega : 0 < b - a + 1)
  show a ≤ a + (g : Int) % (b - a + 1) ∧ a + (g : Int) % (b - a + 1) ≤ b
  omega
example : toolRandomNodes true counterInts "3".toList none "5".toList "7".toList = .ok [1, 2, 0, 1, 2] := by decide +kernel
example : toolTestQueries counterInts "3".toList "2".toList "7".toList = .ok ([1, 0], [2, 1]) := by decide +kernel
example : toolRandomTimes false counterInts "3".toList none "7".toList (some [5, 0, 0, 0]) = .ok [2, 3, 4] := by decide +kernel
example : toolRandomNodes false counterInts "nodes".toList (some [9, 0, 0, 0, 9, 0, 0, 0]) "3".toList "7".toList = .ok [1, 0, 1] := by decide +kernel

/-- Finding: a file whose name starts with a digit is not read; its name is taken for a number. -/
theorem C77_file_name_taken_for_number : toolRandomNodes false counterInts "3nodes".toList (some [9, 0, 0, 0, 9, 0, 0, 0]) "3".toList "7".toList =
    .ok [1, 2, 0] := by decide +kernel

/-- Finding: a size of `2^32` yields the empty vector. -/
theorem C77_size_wraps : toolConstantVector "4294967296".toList "7".toList = .ok [] := by decide +kernel

end RK.Props
