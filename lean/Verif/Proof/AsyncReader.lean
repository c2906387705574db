import Verif.Model.AsyncReader
import Verif.Proof.VectorIO
import Mathlib.Tactic.Ring
/-! # Proofs about the asynchronous reader -/
namespace RK
open Spec

/-! ### Arithmetic of the ring -/

theorem mod_add_le {n c d : Nat} (hd : d ≤ n) (hn : 0 < n) : (c + d) % n = if c % n + d < n then c % n + d else c % n + d - n := by
  have h1 := Nat.mod_lt c hn
  have h2 : (c + d) % n = (c % n + d) % n := by rw [Nat.mod_add_mod]
  rw [h2]
  split
  · exact Nat.mod_eq_of_lt (by assumption)
  · rw [Nat.mod_eq_sub_mod (by omega)]
    exact Nat.mod_eq_of_lt (by omega)

theorem howMany_mod {n c p : Nat} (h1 : c ≤ p) (h2 : p < c + n) : howMany n (c % n) (p % n) = p - c := by
  obtain ⟨d, rfl⟩ := Nat.exists_eq_add_of_le h1
  have hn : 0 < n := by omega
  have := Nat.mod_lt c hn
  rw [mod_add_le (by omega) hn]
  unfold howMany
  split <;> split <;> omega

/-- Different positions at distance less than the size of the ring are different in the ring. -/
theorem mod_ne {n q p : Nat} (h1 : q < p) (h2 : p < q + n) : q % n ≠ p % n := by
  obtain ⟨d, rfl⟩ := Nat.exists_eq_add_of_lt h1
  have hn : 0 < n := by omega
  have := Nat.mod_lt q hn
  rw [show q + d + 1 = q + (d + 1) by omega, mod_add_le (by omega) hn]
  split <;> omega

/-! ### Memory -/

theorem rd_writeAt {buf buf' data : List Byte} {pos : Nat} (h : writeAt buf pos data = some buf') (i : Nat) :
    rd buf' i = if pos ≤ i ∧ i < pos + data.length then rd data (i - pos) else rd buf i := by
  unfold writeAt at h
  split at h
  · rename_i hle
    injection h with h
    subst h
    unfold rd
    rw [List.append_assoc, List.getElem?_append, List.length_take, Nat.min_eq_left (by omega)]
    by_cases h1 : i < pos
    · rw [if_pos h1, if_neg (by omega), List.getElem?_take, if_pos h1]
    · rw [if_neg h1, List.getElem?_append]
      by_cases h2 : i - pos < data.length
      · rw [if_pos h2, if_pos (by omega)]
      · rw [if_neg h2, if_neg (by omega), List.getElem?_drop]
        congr 1
        omega
  · cases h

theorem length_writeAt {buf buf' data : List Byte} {pos : Nat} (h : writeAt buf pos data = some buf') : buf'.length = buf.length := by
  unfold writeAt at h
  split at h
  · injection h with h
    subst h
    simp only [List.length_append, List.length_take, List.length_drop]
    omega
  · cases h

theorem writeAt_ok {buf data : List Byte} {pos : Nat} (h : pos + data.length ≤ buf.length) : ∃ buf', writeAt buf pos data = some buf' := by
  unfold writeAt; rw [if_pos h]; exact ⟨_, rfl⟩

theorem memcpy_spec {buf : List Byte} {dst src len : Nat} (h1 : src + len ≤ buf.length) (h2 : dst + len ≤ buf.length)
    (h3 : dst + len ≤ src ∨ src + len ≤ dst) : ∃ buf', memcpy buf dst src len = some buf' ∧ buf'.length = buf.length ∧
      ∀ i, rd buf' i = if dst ≤ i ∧ i < dst + len then rd buf (src + (i - dst)) else rd buf i := by
  have hl : ((buf.drop src).take len).length = len := by rw [List.length_take, List.length_drop]; omega
  obtain ⟨b, hb⟩ := writeAt_ok (buf := buf) (data := (buf.drop src).take len) (pos := dst) (by omega)
  refine ⟨b, ?_, length_writeAt hb, fun i => ?_⟩
  · unfold memcpy; rw [if_pos ⟨h1, h3⟩]; exact hb
  · rw [rd_writeAt hb, hl]
    split
    · unfold rd
      rw [List.getElem?_take, if_pos (by omega), List.getElem?_drop]
    · rfl

/-! ### The data in the ring -/

/-- Byte `q` of the stream is in the buffer, and in the mirror block if it is in the first block. -/
def Has (B : Nat) (st buf : List Byte) (q : Nat) : Prop :=
  rd buf (q % (5 * B)) = rd st q ∧ (q % (5 * B) < B → rd buf (5 * B + q % (5 * B)) = rd st q)

/-- Appending: the bytes behind `p` are written contiguously behind position `p % (5 * B)`; all bytes from `lo` on stay. -/
theorem ringAppend_spec {B p n lo : Nat} {st buf : List Byte} (hB : 0 < B) (hlen : buf.length = 6 * B) (hn : n ≤ B)
    (hnew : ∀ k, k < n → rd buf (p % (5 * B) + k) = rd st (p + k)) (hlo : p + n ≤ lo + 5 * B) (hlop : lo ≤ p)
    (hold : ∀ q, lo ≤ q → q < p → Has B st buf q) :
    ∃ buf', ringAppend (5 * B) B buf (p % (5 * B)) n = some (buf', (p + n) % (5 * B)) ∧ buf'.length = 6 * B ∧
      ∀ q, lo ≤ q → q < p + n → Has B st buf' q := by
  have hN : 0 < 5 * B := by omega
  have hm := Nat.mod_lt p hN
  have hpn := mod_add_le (n := 5 * B) (c := p) (d := n) (by omega) hN
  -- old positions are different from the new ones
  have hdiff : ∀ q k, lo ≤ q → q < p → k < n → q % (5 * B) ≠ (p + k) % (5 * B) := fun q k h1 h2 h3 => mod_ne (by omega) (by omega)
  unfold ringAppend
  simp only []
  by_cases hw : p % (5 * B) + n ≥ 5 * B
  · obtain ⟨b1, e1, l1, r1⟩ := memcpy_spec (buf := buf) (dst := 0) (src := 5 * B) (len := p % (5 * B) + n - 5 * B) (by omega) (by omega) (by omega)
    rw [if_pos hw, e1]
    simp only [Option.map_some, Option.bind_eq_bind, Option.bind_some]
    rw [if_neg (by omega)]
    simp only [Option.bind_some]
    rw [if_neg (by omega)] at hpn
    refine ⟨b1, by rw [hpn], by omega, ?_⟩
    intro q h1 h2
    by_cases hq : q < p
    · obtain ⟨a1, a2⟩ := hold q h1 hq
      have hqm := Nat.mod_lt q hN
      have hne : ¬ (q % (5 * B) < p % (5 * B) + n - 5 * B) := by
        intro hlt
        have hk : 5 * B - p % (5 * B) + q % (5 * B) < n := by omega
        refine hdiff q (5 * B - p % (5 * B) + q % (5 * B)) h1 hq hk ?_
        rw [mod_add_le (by omega) hN, if_neg (by omega)]
        omega
      refine ⟨by rw [r1, if_neg (by omega)]; exact a1, fun hqB => ?_⟩
      rw [r1, if_neg (by omega)]; exact a2 hqB
    · obtain ⟨k, rfl⟩ := Nat.exists_eq_add_of_le (Nat.le_of_not_lt hq)
      have hk : k < n := by omega
      have := hnew k hk
      unfold Has
      rw [mod_add_le (by omega) hN]
      by_cases hc : p % (5 * B) + k < 5 * B
      · rw [if_pos hc]
        refine ⟨by rw [r1, if_neg (by omega)]; exact this, fun h => by omega⟩
      · rw [if_neg hc]
        refine ⟨?_, fun h => ?_⟩
        · rw [r1, if_pos (by omega), ← this]; congr 1; omega
        · rw [r1, if_neg (by omega), ← this]; congr 1; omega
  · rw [if_neg hw]
    rw [if_pos (by omega)] at hpn
    simp only [Option.bind_eq_bind, Option.bind_some]
    by_cases hd : p % (5 * B) < B
    · rw [if_pos hd]
      have hlen' : ∃ len, (if p % (5 * B) + n < B then memcpy buf (5 * B + p % (5 * B)) (p % (5 * B)) n
          else memcpy buf (5 * B + p % (5 * B)) (p % (5 * B)) (B - p % (5 * B))) = memcpy buf (5 * B + p % (5 * B)) (p % (5 * B)) len ∧
          len ≤ n ∧ p % (5 * B) + len ≤ B ∧ (∀ k, k < n → p % (5 * B) + k < B → k < len) := by
        split
        · exact ⟨n, rfl, by omega, by omega, fun k h _ => h⟩
        · exact ⟨B - p % (5 * B), rfl, by omega, by omega, fun k _ h => by omega⟩
      obtain ⟨len, el, g1, g2, g3⟩ := hlen'
      obtain ⟨b1, e1, l1, r1⟩ := memcpy_spec (buf := buf) (dst := 5 * B + p % (5 * B)) (src := p % (5 * B)) (len := len) (by omega) (by omega) (by omega)
      rw [el, e1]
      simp only [Option.bind_some]
      refine ⟨b1, by rw [hpn], by omega, ?_⟩
      intro q h1 h2
      by_cases hq : q < p
      · obtain ⟨a1, a2⟩ := hold q h1 hq
        have hqm := Nat.mod_lt q hN
        refine ⟨by rw [r1, if_neg (by omega)]; exact a1, fun hqB => ?_⟩
        rw [r1, if_neg ?_]
        · exact a2 hqB
        · rintro ⟨i1, i2⟩
          refine hdiff q (q % (5 * B) - p % (5 * B)) h1 hq (by omega) ?_
          rw [mod_add_le (by omega) hN, if_pos (by omega)]
          omega
      · obtain ⟨k, rfl⟩ := Nat.exists_eq_add_of_le (Nat.le_of_not_lt hq)
        have hk : k < n := by omega
        have := hnew k hk
        unfold Has
        rw [mod_add_le (by omega) hN, if_pos (by omega)]
        refine ⟨by rw [r1, if_neg (by omega)]; exact this, fun h => ?_⟩
        have := g3 k hk h
        rw [r1, if_pos (by omega), ← hnew k hk]; congr 1; omega
    · rw [if_neg hd]
      simp only [Option.bind_some]
      refine ⟨buf, by rw [hpn], hlen, ?_⟩
      intro q h1 h2
      by_cases hq : q < p
      · exact hold q h1 hq
      · obtain ⟨k, rfl⟩ := Nat.exists_eq_add_of_le (Nat.le_of_not_lt hq)
        have hk : k < n := by omega
        have := hnew k hk
        unfold Has
        rw [mod_add_le (by omega) hN, if_pos (by omega)]
        exact ⟨this, fun h => by omega⟩

/-- A slice of at most one block is contiguous in the buffer. -/
theorem slice_spec {B c k : Nat} {st buf : List Byte} (hB : 0 < B) (hk : k ≤ B) (hlen : buf.length = 6 * B)
    (hst : c + k ≤ st.length) (h : ∀ q, c ≤ q → q < c + k → Has B st buf q) :
    c % (5 * B) + k ≤ buf.length ∧ (buf.drop (c % (5 * B))).take k = (st.drop c).take k := by
  have hN : 0 < 5 * B := by omega
  have hm := Nat.mod_lt c hN
  refine ⟨by omega, ?_⟩
  apply List.ext_getElem?
  intro i
  rw [List.getElem?_take, List.getElem?_take]
  split
  · rename_i hi
    rw [List.getElem?_drop, List.getElem?_drop]
    obtain ⟨h1, h2⟩ := h (c + i) (by omega) (by omega)
    rw [mod_add_le (by omega) hN] at h1 h2
    by_cases hc : c % (5 * B) + i < 5 * B
    · rw [if_pos hc] at h1; exact h1
    · rw [if_neg hc] at h2
      have := h2 (by omega)
      rw [show 5 * B + (c % (5 * B) + i - 5 * B) = c % (5 * B) + i by omega] at this
      exact this
  · rfl

/-- Writing at most one block behind the data does not change the last `2 * B` bytes less. -/
theorem has_writeAt {B p lo q : Nat} {st buf buf' w : List Byte} (hB : 0 < B) (hw : w.length ≤ B)
    (h : writeAt buf (p % (5 * B)) w = some buf') (hlo : p + B ≤ lo + 5 * B) (h1 : lo ≤ q) (h2 : q < p) (hq : Has B st buf q) : Has B st buf' q := by
  have hN : 0 < 5 * B := by omega
  have hm := Nat.mod_lt p hN
  have hqm := Nat.mod_lt q hN
  have hdiff : ∀ k, k < w.length → q % (5 * B) ≠ (p + k) % (5 * B) := fun k h3 => mod_ne (by omega) (by omega)
  obtain ⟨a1, a2⟩ := hq
  refine ⟨?_, fun hqB => ?_⟩
  · rw [rd_writeAt h, if_neg ?_]
    · exact a1
    · rintro ⟨i1, i2⟩
      refine hdiff (q % (5 * B) - p % (5 * B)) (by omega) ?_
      rw [mod_add_le (by omega) hN, if_pos (by omega)]; omega
  · rw [rd_writeAt h, if_neg ?_]
    · exact a2 hqB
    · rintro ⟨i1, i2⟩
      refine hdiff (5 * B + q % (5 * B) - p % (5 * B)) (by omega) ?_
      rw [mod_add_le (by omega) hN, if_neg (by omega)]; omega

/-! ### Histories -/

theorem delivers_snoc {B : Nat} {P : Prop} {x : Nat × ReadResult} : ∀ {log : List (Nat × ReadResult)} {s mid rest : List Byte},
    Delivers B P s log mid → Delivers B P mid [x] rest → Delivers B P s (log ++ [x]) rest
  | [], s, mid, rest, h1, h2 => by
    rw [show mid = s from h1] at h2; exact h2
  | (size, .slice b) :: log, s, mid, rest, h1, h2 => ⟨h1.1, h1.2.1, h1.2.2.1, delivers_snoc h1.2.2.2 h2⟩
  | (size, .null) :: log, s, mid, rest, h1, h2 => ⟨h1.1, h1.2.1, delivers_snoc h1.2.2 h2⟩
  | (size, .rejected) :: log, s, mid, rest, h1, h2 => ⟨h1.1, delivers_snoc h1.2 h2⟩
  | (size, .threw) :: log, s, mid, rest, h1, h2 => ⟨h1.1, h1.2.1, delivers_snoc h1.2.2 h2⟩

/-! ### The invariant -/

/-- The number of bytes of the slice which the client may still read. -/
def AState.held (s : AState) : Nat :=
  match s.ret with
  | some (_, k) => k
  | none => 0

/-- Some call of the source throws. -/
def Throws (src : List SourceCall) : Prop := ∃ w, SourceCall.throws w ∈ src

/-- What is known at the points of the worker; `st` is the stream, `c` bytes of it have been consumed and `p` produced. -/
def WFacts (B : Nat) (src : List SourceCall) (s : AState) (c p : Nat) : WPc → Prop
  | .lock | .check => stream s.source = (stream src).drop p ∧ s.eof = false ∧ s.exc = false
  | .park => stream s.source = (stream src).drop p ∧ s.eof = false ∧ s.exc = false ∧ c + 3 * B < p ∧ s.term = false
  | .sleep => stream s.source = (stream src).drop p ∧ s.eof = false ∧ s.exc = false ∧ c + 3 * B < p ∧ (s.term = true → s.cpc = .dnotify)
  | .read => stream s.source = (stream src).drop p ∧ s.eof = false ∧ s.exc = false ∧ p ≤ c + 3 * B
  | .relock n | .body n => s.eof = false ∧ s.exc = false ∧ p ≤ c + 3 * B ∧ n ≤ B ∧ (n = 0 → (stream src).length = p) ∧
      (0 < n → p + n ≤ (stream src).length ∧ stream s.source = (stream src).drop (p + n) ∧
        ∀ k, k < n → rd s.buffer (p % (5 * B) + k) = rd (stream src) (p + k))
  | .throw1 => s.eof = false ∧ s.exc = false ∧ (stream src).length = p ∧ Throws src
  | .throw2 => s.exc = true ∧ (stream src).length = p ∧ Throws src
  | .done => (s.eof = true ∨ s.term = true ∨ s.exc = true)

/-- What is known at the points of the client. -/
def CFacts (B : Nat) (s : AState) (c p : Nat) : CPc → Prop
  | .idle => s.term = false
  | .lock size => size ≤ B ∧ s.term = false ∧ s.ret = none
  | .check size => size ≤ B ∧ s.term = false ∧ s.ret = none
  | .park size | .sleep size => size ≤ B ∧ s.term = false ∧ s.ret = none ∧ s.eof = false ∧ p < c + size
  | .body size => size ≤ B ∧ s.term = false ∧ s.ret = none ∧ (s.eof = true ∨ c + size ≤ p ∨ s.exc = true)
  | .dlock => s.term = false ∧ s.ret = none
  | .dnotify => s.term = true ∧ s.ret = none
  | .djoin => s.term = true ∧ s.ret = none
  | .destroyed => s.term = true ∧ s.ret = none ∧ s.wpc = .done

/-- The worker holds the mutex at these points. -/
def WPc.holds : WPc → Bool
  | .check | .park | .body _ => true
  | _ => false

/-- The client holds the mutex at these points. -/
def CPc.holds : CPc → Bool
  | .check _ | .park _ | .body _ => true
  | _ => false

structure AInv (B : Nat) (src : List SourceCall) (s : AState) (c p : Nat) : Prop where
  bs : s.blockSize = B
  buf : s.buffer.length = 6 * B
  db : s.dataBegin = c % (5 * B)
  de : s.dataEnd = p % (5 * B)
  cp : c ≤ p
  pc : p ≤ c + 4 * B
  plen : p ≤ (stream src).length
  live : ∀ q, c ≤ q + s.held → q < p → Has B (stream src) s.buffer q
  held : ∀ pos k, s.ret = some (pos, k) → k ≤ B ∧ k ≤ c ∧ pos = (c - k) % (5 * B) ∧
    ∃ l1 l2, s.log = l1 ++ (k, .slice (((stream src).drop (c - k)).take k)) :: l2 ∧ ∀ e ∈ l2, e.2 = ReadResult.rejected
  ok : ∀ x ∈ s.source, x.Ok B
  sub : ∀ x ∈ s.source, x ∈ src
  eofE : s.eof = true → (stream src).length = p
  excE : s.exc = true → (stream src).length = p ∧ Throws src
  wf : WFacts B src s c p s.wpc
  cf : CFacts B s c p s.cpc
  mw : s.mutex = some .worker ↔ s.wpc.holds = true
  mc : s.mutex = some .client ↔ s.cpc.holds = true
  log : Delivers B (Throws src) (stream src) s.log ((stream src).drop c)

theorem AInv.heldB {B c p : Nat} {src : List SourceCall} {s : AState} (h : AInv B src s c p) : s.held ≤ B ∧ s.held ≤ c := by
  unfold AState.held
  cases hr : s.ret with
  | none => exact ⟨Nat.zero_le _, Nat.zero_le _⟩
  | some x => obtain ⟨pos, k⟩ := x; exact ⟨(h.held pos k hr).1, (h.held pos k hr).2.1⟩

/-- The sizes of the buffer do not overflow. -/
theorem ring_eq {B : Nat} {s : AState} (hB : 6 * B < u32) (h : s.blockSize = B) : s.ring = 5 * B := by
  unfold AState.ring mul32
  rw [h]
  exact Nat.mod_eq_of_lt (by omega)

theorem AInv.count {B c p : Nat} {src : List SourceCall} {s : AState} (h : AInv B src s c p) (hB : 0 < B) (hu : 6 * B < u32) : s.count = p - c := by
  unfold AState.count
  rw [ring_eq hu h.bs, h.db, h.de, howMany_mod h.cp]
  have := h.pc
  omega

theorem init_inv {B : Nat} {src : List SourceCall} {b : Byte} (hu : 6 * B < u32) (hok : ∀ x ∈ src, x.Ok B) :
    AInv B src (AState.init B src b) 0 0 where
  bs := rfl
  buf := by
    show (List.replicate (mul32 6 B) b).length = _
    rw [List.length_replicate]; unfold mul32; exact Nat.mod_eq_of_lt (by omega)
  db := (Nat.zero_mod _).symm
  de := (Nat.zero_mod _).symm
  cp := Nat.le_refl _
  pc := by omega
  plen := Nat.zero_le _
  live := fun q _ h => by omega
  held := fun pos k h => by cases h
  ok := hok
  sub := fun x h => h
  eofE := fun h => by cases h
  excE := fun h => by cases h
  wf := ⟨rfl, rfl, rfl⟩
  cf := rfl
  mw := ⟨(fun h => by cases h), (fun h => by cases h)⟩
  mc := ⟨(fun h => by cases h), (fun h => by cases h)⟩
  log := rfl

/-- Waking the client keeps everything that is known about the worker and the memory. -/
theorem wakeClient_facts {B c p : Nat} {s : AState} (h : CFacts B s c p s.cpc) :
    CFacts B s.wakeClient c p s.wakeClient.cpc ∧ s.wakeClient = { s with cpc := s.wakeClient.cpc } ∧
      s.wakeClient.cpc.holds = s.cpc.holds ∧ (∀ size, s.wakeClient.cpc ≠ .sleep size) ∧
      (∀ size, s.wakeClient.cpc = .body size ↔ s.cpc = .body size) ∧ (∀ size, s.wakeClient.cpc = .park size ↔ s.cpc = .park size) ∧
      (s.wakeClient.cpc = .dnotify ↔ s.cpc = .dnotify) := by
  obtain ⟨bs, bf, db, de, eof, term, exc, mutex, wpc, cpc, source, ret, log⟩ := s
  cases cpc <;> simp_all [AState.wakeClient, CFacts, CPc.holds]

/-- The facts about the client do not depend on the rest of the state. -/
theorem CFacts.congr {B c p : Nat} {s s' : AState} {pc : CPc} (h : CFacts B s c p pc) (ht : s'.term = s.term) (hr : s'.ret = s.ret)
    (he : s'.eof = s.eof) (hx : s'.exc = s.exc) (hw : s.wpc ≠ .done ∨ s'.wpc = .done) : CFacts B s' c p pc := by
  cases pc <;> simp only [CFacts, ht, hr, he, hx] at h ⊢ <;> try exact h
  rcases hw with hw | hw
  · exact absurd h.2.2 hw
  · exact ⟨h.1, h.2.1, hw⟩

/-- The facts about the worker do not depend on the rest of the state. -/
theorem WFacts.congr {B c p : Nat} {src : List SourceCall} {s s' : AState} {pc : WPc} (h : WFacts B src s c p pc) (ht : s'.term = s.term)
    (hs : s'.source = s.source) (he : s'.eof = s.eof) (hx : s'.exc = s.exc) (hb : s'.buffer = s.buffer)
    (hc : s.cpc ≠ .dnotify ∨ s'.cpc = .dnotify) : WFacts B src s' c p pc := by
  cases pc <;> simp only [WFacts, ht, hs, he, hx, hb] at h ⊢ <;> try exact h
  refine ⟨h.1, h.2.1, h.2.2.1, h.2.2.2.1, fun h' => ?_⟩
  rcases hc with hc | hc
  · exact absurd (h.2.2.2.2 h') hc
  · exact hc

variable {B c p : Nat} {src : List SourceCall} {s s' : AState}

theorem AInv.notClient (h : AInv B src s c p) (hw : s.wpc.holds = true) : s.cpc.holds = false := by
  have h1 := h.mw.2 hw
  cases hc : s.cpc.holds with
  | false => rfl
  | true =>
    have h2 := h.mc.2 hc
    rw [h1] at h2
    cases h2

theorem AInv.notWorker (h : AInv B src s c p) (hc : s.cpc.holds = true) : s.wpc.holds = false := by
  cases hw : s.wpc.holds with
  | false => rfl
  | true =>
    have h1 := h.notClient hw
    rw [hc] at h1
    cases h1

/-- The outcome of an event: no undefined behaviour, and the invariant holds afterwards. -/
def AKeeps (B : Nat) (src : List SourceCall) (r : Res AState) : Prop :=
  match r with
  | .ok s => ∃ c p, AInv B src s c p
  | .error => True
  | .ub => False

theorem stream_cons_returns {w : List Byte} {n : Nat} {rest : List SourceCall} (hn : 0 < n) :
    stream (.returns w n :: rest) = w.take n ++ stream rest := by
  rw [stream, if_neg (by omega)]

theorem callSource_inv (hB : 0 < B) (h : AInv B src s c p) (hw : s.wpc = .read) : AKeeps B src s.callSource := by
  have hwf := h.wf
  rw [hw] at hwf
  obtain ⟨w1, w2, w3, w4⟩ := hwf
  have hN : 0 < 5 * B := by omega
  have hm := Nat.mod_lt p hN
  have hh := h.heldB
  have hmw : s.mutex ≠ some .worker := fun e => by have := h.mw.1 e; rw [hw] at this; cases this
  have hlen : (stream s.source).length = (stream src).length - p := by rw [w1, List.length_drop]
  have hpl := h.plen
  -- the memory after writing
  have write : ∀ w : List Byte, w.length ≤ B → ∃ b, writeAt s.buffer s.dataEnd w = some b ∧ b.length = 6 * B ∧
      (∀ q, c ≤ q + s.held → q < p → Has B (stream src) b q) ∧ ∀ k, k < w.length → rd b (p % (5 * B) + k) = rd w k := by
    intro w hwl
    obtain ⟨b, eb⟩ := writeAt_ok (buf := s.buffer) (data := w) (pos := s.dataEnd) (by rw [h.de, h.buf]; omega)
    have eb' := eb
    rw [h.de] at eb'
    refine ⟨b, eb, (length_writeAt eb).trans h.buf, ?_, ?_⟩
    · intro q h1 h2
      exact has_writeAt (lo := c - s.held) hB hwl eb' (by omega) (by omega) h2 (h.live q h1 h2)
    · intro k hk
      rw [rd_writeAt eb', if_pos (by omega)]
      congr 1; omega
  unfold AState.callSource
  cases hs : s.source with
  | nil =>
    rw [hs] at hlen
    refine ⟨c, p, { h with mw := ⟨fun e => absurd e hmw, (fun e => by cases e)⟩, wf := ?_, cf := ?_, ok := (fun x hx => by cases hx), sub := (fun x hx => by cases hx) }⟩
    · refine ⟨w2, w3, w4, Nat.zero_le _, fun _ => ?_, fun h => by omega⟩
      have : (stream []).length = 0 := rfl
      omega
    · exact h.cf.congr rfl rfl rfl rfl (Or.inl (by rw [hw]; decide))
  | cons x rest =>
    have hxok := h.ok x (by rw [hs]; exact List.mem_cons_self)
    have hxsub := h.sub x (by rw [hs]; exact List.mem_cons_self)
    have hok : ∀ x ∈ rest, x.Ok B := fun y hy => h.ok y (by rw [hs]; exact List.mem_cons_of_mem _ hy)
    have hsub : ∀ x ∈ rest, x ∈ src := fun y hy => h.sub y (by rw [hs]; exact List.mem_cons_of_mem _ hy)
    cases x with
    | returns w n =>
      obtain ⟨x1, x2⟩ := hxok
      obtain ⟨b, eb, lb, hl, hnew⟩ := write w x2
      simp only [eb]
      refine ⟨c, p, { h with buf := lb, live := hl, ok := hok, sub := hsub, mw := ⟨fun e => absurd e hmw, (fun e => by cases e)⟩, wf := ?_, cf := ?_ }⟩
      · refine ⟨w2, w3, w4, by omega, fun h0 => ?_, fun hn => ?_⟩
        · rw [hs, h0, stream, if_pos rfl] at hlen
          have : ([] : List Byte).length = 0 := rfl
          omega
        · rw [hs, stream_cons_returns hn] at hlen w1
          rw [List.length_append, List.length_take] at hlen
          refine ⟨by omega, ?_, ?_⟩
          · show stream rest = _
            rw [← List.drop_drop, ← w1, List.drop_append, List.drop_eq_nil_of_le (by rw [List.length_take]; omega),
              List.length_take, Nat.min_eq_left x1, Nat.sub_self]
            rfl
          · intro k hk
            show rd b _ = _
            rw [hnew k (by omega)]
            have : rd ((stream src).drop p) k = rd w k := by
              rw [← w1]
              unfold rd
              rw [List.getElem?_append_left (by rw [List.length_take]; omega), List.getElem?_take, if_pos hk]
            rw [← this]
            unfold rd
            rw [List.getElem?_drop]
      · exact h.cf.congr rfl rfl rfl rfl (Or.inl (by rw [hw]; decide))
    | throws w =>
      obtain ⟨b, eb, lb, hl, hnew⟩ := write w hxok
      simp only [eb]
      refine ⟨c, p, { h with buf := lb, live := hl, ok := hok, sub := hsub, mw := ⟨fun e => absurd e hmw, (fun e => by cases e)⟩, wf := ?_, cf := ?_ }⟩
      · refine ⟨w2, w3, ?_, ⟨w, hxsub⟩⟩
        rw [hs, stream] at hlen
        have : ([] : List Byte).length = 0 := rfl
        omega
      · exact h.cf.congr rfl rfl rfl rfl (Or.inl (by rw [hw]; decide))

theorem afterRead_inv (hB : 0 < B) (hu : 6 * B < u32) (h : AInv B src s c p) {n : Nat} (hw : s.wpc = .body n) : AKeeps B src (s.afterRead n) := by
  have hwf := h.wf
  rw [hw] at hwf
  obtain ⟨w1, w2, w3, w4, w5, w6⟩ := hwf
  have hh := h.heldB
  have hnc := h.notClient (by rw [hw]; rfl)
  have hmw := h.mw.2 (by rw [hw]; rfl)
  unfold AState.afterRead
  rw [if_neg (by rw [h.bs]; omega)]
  by_cases ht : s.term = true
  · rw [if_pos ht]
    refine ⟨c, p, { h with wf := Or.inr (Or.inl ht), cf := h.cf.congr rfl rfl rfl rfl (Or.inr rfl), mw := ⟨(fun e => by cases e), (fun e => by cases e)⟩, mc := ?_ }⟩
    exact ⟨(fun e => by cases e), fun e => absurd e (by rw [hnc]; decide)⟩
  · rw [if_neg ht]
    obtain ⟨g1, g2, g3, g4, g5, g6, g7⟩ := wakeClient_facts h.cf
    have hnc' : s.wakeClient.cpc.holds = false := by rw [g3]; exact hnc
    by_cases h0 : n = 0
    · rw [if_pos h0]
      have hl := w5 h0
      rw [g2]
      refine ⟨c, p, { h with wf := Or.inl rfl, cf := ?_, mw := ⟨(fun e => by cases e), (fun e => by cases e)⟩, mc := ?_, eofE := fun _ => hl }⟩
      · show CFacts B _ c p s.wakeClient.cpc
        rw [g2] at g1
        generalize s.wakeClient.cpc = pc at *
        cases pc <;> simp only [CFacts, CPc.holds] at g1 hnc' ⊢ <;> try exact g1
        · cases hnc'
        · exact absurd rfl (g4 _)
        · cases hnc'
        · exact ⟨g1.1, g1.2.1, trivial⟩
      · exact ⟨(fun e => by cases e), fun e => absurd e (by show ¬ s.wakeClient.cpc.holds = true; rw [hnc']; decide)⟩
    · rw [if_neg h0]
      obtain ⟨q1, q2, q3⟩ := w6 (by omega)
      obtain ⟨b, eb, lb, hlive⟩ := ringAppend_spec (B := B) (p := p) (n := n) (lo := c - s.held) (st := stream src) (buf := s.buffer) hB h.buf w4 q3
        (by omega) (by have := h.cp; omega) (fun q h1 h2 => h.live q (by omega) h2)
      have eb' : ringAppend s.ring s.blockSize s.buffer s.dataEnd n = some (b, (p + n) % (5 * B)) := by
        rw [ring_eq hu h.bs, h.de, h.bs]; exact eb
      rw [eb', g2]
      have hcp := h.cp
      refine ⟨c, p + n, { h with buf := lb, de := rfl, cp := by omega, pc := by omega, plen := q1, live := ?_, wf := ⟨q2, w1, w2⟩, cf := ?_, mw := ⟨fun _ => rfl, fun _ => hmw⟩, mc := ?_, eofE := ?_, excE := ?_ }⟩
      · exact fun q h1 h2 => hlive q (by have : s.held ≤ c := hh.2; exact Nat.sub_le_iff_le_add.2 h1) h2
      · exact fun e => absurd e (by show ¬ s.eof = true; rw [w1]; decide)
      · exact fun e => absurd e (by show ¬ s.exc = true; rw [w2]; decide)
      · show CFacts B _ c (p + n) s.wakeClient.cpc
        rw [g2] at g1
        generalize s.wakeClient.cpc = pc at *
        cases pc <;> simp only [CFacts, CPc.holds] at g1 hnc' ⊢ <;> try exact g1
        · cases hnc'
        · exact absurd rfl (g4 _)
        · cases hnc'
        · exact absurd (g1.2.2.symm.trans hw) (by simp)
      · show s.mutex = _ ↔ s.wakeClient.cpc.holds = true
        rw [g3]; exact h.mc

theorem workerStep_inv (hB : 0 < B) (hu : 6 * B < u32) (h : AInv B src s c p) : AKeeps B src s.workerStep := by
  have hcount := h.count hB hu
  have hring := ring_eq hu h.bs
  have hwf := h.wf
  have hcp := h.cp
  have hpc := h.pc
  have hnw : s.wpc ≠ .done → ∀ s', s'.term = s.term → s'.ret = s.ret → s'.eof = s.eof → s'.exc = s.exc → CFacts B s' c p s.cpc :=
    fun hne s' a1 a2 a3 a4 => h.cf.congr a1 a2 a3 a4 (Or.inl hne)
  unfold AState.workerStep
  cases hw : s.wpc with
  | lock =>
    rw [hw] at hwf
    simp only []
    by_cases hm : s.mutex = none
    · rw [if_pos hm]
      refine ⟨c, p, { h with wf := hwf, cf := hnw (by rw [hw]; decide) _ rfl rfl rfl rfl, mw := ⟨fun _ => rfl, fun _ => rfl⟩, mc := ?_ }⟩
      refine ⟨(fun e => by cases e), fun e => ?_⟩
      have := h.mc.2 e
      rw [hm] at this; cases this
    · rw [if_neg hm]; trivial
  | check =>
    rw [hw] at hwf
    simp only []
    have hnc := h.notClient (by rw [hw]; rfl)
    have hmw := h.mw.2 (by rw [hw]; rfl)
    have hrun : s.workerMayRun = (decide (5 * B - (p - c) ≥ 2 * B) || s.term) := by
      unfold AState.workerMayRun
      rw [hring, hcount, h.bs]
    rw [hrun]
    have mcNone : ∀ {x : Prop}, (none = some Thread.client ↔ s.cpc.holds = true) := fun {x} =>
      ⟨(fun e => by cases e), fun e => absurd e (by rw [hnc]; decide)⟩
    by_cases ht : s.term = true
    · rw [if_pos (by simp [ht]), if_pos ht]
      exact ⟨c, p, { h with wf := Or.inr (Or.inl ht), cf := h.cf.congr rfl rfl rfl rfl (Or.inr rfl), mw := ⟨(fun e => by cases e), (fun e => by cases e)⟩, mc := mcNone (x := True) }⟩
    · by_cases hr : 5 * B - (p - c) ≥ 2 * B
      · rw [if_pos (by simp [hr]), if_neg ht]
        exact ⟨c, p, { h with wf := ⟨hwf.1, hwf.2.1, hwf.2.2, by omega⟩, cf := hnw (by rw [hw]; decide) _ rfl rfl rfl rfl, mw := ⟨(fun e => by cases e), (fun e => by cases e)⟩, mc := mcNone (x := True) }⟩
      · rw [if_neg (by simp [hr, ht])]
        exact ⟨c, p, { h with wf := ⟨hwf.1, hwf.2.1, hwf.2.2, by omega, by simpa using ht⟩, cf := hnw (by rw [hw]; decide) _ rfl rfl rfl rfl, mw := ⟨fun _ => rfl, fun _ => hmw⟩ }⟩
  | park =>
    rw [hw] at hwf
    simp only []
    have hnc := h.notClient (by rw [hw]; rfl)
    obtain ⟨a1, a2, a3, a4, a5⟩ := hwf
    exact ⟨c, p, { h with wf := ⟨a1, a2, a3, a4, fun e => absurd e (by show ¬ s.term = true; rw [a5]; decide)⟩, cf := hnw (by rw [hw]; decide) _ rfl rfl rfl rfl, mw := ⟨(fun e => by cases e), (fun e => by cases e)⟩, mc := ⟨(fun e => by cases e), fun e => absurd e (by show ¬ s.cpc.holds = true; rw [hnc]; decide)⟩ }⟩
  | sleep => trivial
  | read => exact callSource_inv hB h hw
  | relock n =>
    rw [hw] at hwf
    simp only []
    by_cases hm : s.mutex = none
    · rw [if_pos hm]
      refine ⟨c, p, { h with wf := hwf, cf := hnw (by rw [hw]; simp) _ rfl rfl rfl rfl, mw := ⟨fun _ => rfl, fun _ => rfl⟩, mc := ?_ }⟩
      refine ⟨(fun e => by cases e), fun e => ?_⟩
      have := h.mc.2 e
      rw [hm] at this; cases this
    · rw [if_neg hm]; trivial
  | body n => exact afterRead_inv hB hu h hw
  | throw1 =>
    rw [hw] at hwf
    simp only []
    have hmw : s.mutex ≠ some .worker := fun e => by have := h.mw.1 e; rw [hw] at this; cases this
    refine ⟨c, p, { h with wf := ⟨rfl, hwf.2.2⟩, cf := ?_, mw := ⟨fun e => absurd e hmw, (fun e => by cases e)⟩, excE := fun _ => hwf.2.2 }⟩
    have hcf := h.cf
    generalize s.cpc = pc at *
    cases pc <;> simp only [CFacts] at hcf ⊢ <;> try exact hcf
    · exact ⟨hcf.1, hcf.2.1, hcf.2.2.1, Or.inr (Or.inr trivial)⟩
    · exact absurd (hcf.2.2.symm.trans hw) (by simp)
  | throw2 =>
    rw [hw] at hwf
    simp only []
    have hmw : s.mutex ≠ some .worker := fun e => by have := h.mw.1 e; rw [hw] at this; cases this
    obtain ⟨g1, g2, g3, g4, g5, g6, g7⟩ := wakeClient_facts h.cf
    rw [g2]
    rw [g2] at g1
    refine ⟨c, p, { h with wf := Or.inr (Or.inr hwf.1), cf := ?_, mw := ⟨fun e => absurd e hmw, (fun e => by cases e)⟩, mc := ?_ }⟩
    · exact CFacts.congr g1 rfl rfl rfl rfl (Or.inr rfl)
    · show s.mutex = _ ↔ s.wakeClient.cpc.holds = true
      rw [g3]; exact h.mc
  | done => trivial

theorem wakeWorker_eq (s : AState) : s.wakeWorker = { s with wpc := s.wakeWorker.wpc } := by
  obtain ⟨bs, bf, db, de, eof, term, exc, mutex, wpc, cpc, source, ret, log⟩ := s
  cases wpc <;> rfl

theorem wakeWorker_wpc (s : AState) : s.wakeWorker.wpc = if s.wpc = .sleep then .lock else s.wpc := by
  unfold AState.wakeWorker
  cases h : s.wpc <;> simp [h]

theorem wakeWorker_holds (s : AState) : s.wakeWorker.wpc.holds = s.wpc.holds := by
  rw [wakeWorker_wpc]
  split
  · rename_i h; rw [h]; rfl
  · rfl

/-- Waking the worker, when the space may have grown from `c` to `c'` and the client has moved on. -/
theorem WFacts.wake {B c c' p : Nat} {src : List SourceCall} {s s' : AState} (h : WFacts B src s c p s.wpc) (hc : c ≤ c') (ht : s'.term = s.term)
    (hs : s'.source = s.source) (he : s'.eof = s.eof) (hx : s'.exc = s.exc) (hb : s'.buffer = s.buffer) (hp : s.wpc ≠ .park) :
    WFacts B src s' c' p s.wakeWorker.wpc := by
  rw [wakeWorker_wpc]
  by_cases hsl : s.wpc = .sleep
  · rw [if_pos hsl]
    rw [hsl] at h
    simp only [WFacts, ht, hs, he, hx, hb] at h ⊢
    exact ⟨h.1, h.2.1, h.2.2.1⟩
  · rw [if_neg hsl]
    generalize s.wpc = pc at *
    cases pc <;> simp only [WFacts, ht, hs, he, hx, hb] at h ⊢ <;> first | exact h | skip
    · exact absurd rfl hp
    · exact absurd rfl hsl
    · exact ⟨h.1, h.2.1, h.2.2.1, by omega⟩
    · exact ⟨h.1, h.2.1, by omega, h.2.2.2⟩
    · exact ⟨h.1, h.2.1, by omega, h.2.2.2⟩

theorem delivers_slice {P : Prop} {B size : Nat} {s : List Byte} (h1 : size ≤ B) (h2 : size ≤ s.length) :
    Delivers B P s [(size, .slice (s.take size))] (s.drop size) := ⟨h1, h2, rfl, rfl⟩

theorem finishRead_inv (hB : 0 < B) (hu : 6 * B < u32) (h : AInv B src s c p) {size : Nat} (hcp : s.cpc = .body size) :
    AKeeps B src (s.finishRead size) := by
  have hcount := h.count hB hu
  have hring := ring_eq hu h.bs
  have hcf := h.cf
  rw [hcp] at hcf
  obtain ⟨f1, f2, f3, f4⟩ := hcf
  have hnw := h.notWorker (by rw [hcp]; rfl)
  have hpl := h.plen
  have hle := h.cp
  have hheld : s.held = 0 := by unfold AState.held; rw [f3]
  have mwNone : (none = some Thread.worker) ↔ s.wpc.holds = true := ⟨(fun e => by cases e), fun e => absurd e (by rw [hnw]; decide)⟩
  have mcNone : (none = some Thread.client) ↔ (CPc.idle).holds = true := ⟨(fun e => by cases e), (fun e => by cases e)⟩
  have hnp : s.wpc ≠ .park := fun e => by rw [e] at hnw; cases hnw
  unfold AState.finishRead
  by_cases hx : s.exc = true
  · rw [if_pos hx]
    obtain ⟨x1, x2⟩ := h.excE hx
    refine ⟨c, p, { h with eofE := fun _ => x1, wf := ?_, cf := f2, mw := mwNone, mc := mcNone, log := ?_, held := ?_ }⟩
    · intro pos k e
      exact absurd (f3.symm.trans e) (by simp)
    · have hwf := h.wf
      show WFacts B src _ c p s.wpc
      generalize s.wpc = pc at *
      cases pc <;> simp only [WFacts] at hwf ⊢
      · exact absurd (hwf.2.2.symm.trans hx) (by simp)
      · exact absurd (hwf.2.2.symm.trans hx) (by simp)
      · exact absurd (hwf.2.2.1.symm.trans hx) (by simp)
      · exact absurd (hwf.2.2.1.symm.trans hx) (by simp)
      · exact absurd (hwf.2.2.1.symm.trans hx) (by simp)
      · exact absurd (hwf.2.1.symm.trans hx) (by simp)
      · exact absurd (hwf.2.1.symm.trans hx) (by simp)
      · exact absurd (hwf.2.1.symm.trans hx) (by simp)
      · exact hwf
      · exact Or.inl trivial
    · exact delivers_snoc h.log ⟨f1, x2, rfl⟩
  · rw [if_neg hx]
    by_cases hc : s.count ≥ size
    · rw [if_pos hc]
      rw [hcount] at hc
      obtain ⟨l1, l2⟩ := slice_spec (B := B) (c := c) (k := size) (st := stream src) (buf := s.buffer) hB f1 h.buf (by omega)
        (fun q h1 h2 => h.live q (by omega) (by omega))
      have hdb : (if s.dataBegin + size ≥ s.ring then s.dataBegin + size - s.ring else s.dataBegin + size) = (c + size) % (5 * B) := by
        rw [hring, h.db, mod_add_le (by omega) (by omega)]
        split <;> split <;> omega
      rw [← h.db] at l1 l2
      simp only []
      rw [if_pos l1, hdb, l2, wakeWorker_eq]
      refine ⟨c + size, p, { h with db := rfl, cp := by omega, pc := by have := h.pc; omega, live := ?_, held := ?_, wf := ?_, cf := f2, mw := ?_, mc := mcNone, log := ?_ }⟩
      · intro q h1 h2
        exact h.live q (by rw [hheld]; have : c + size ≤ q + size := h1; omega) h2
      · intro pos k e
        injection e with e
        injection e with e1 e2
        subst e1 e2
        refine ⟨f1, by omega, by rw [Nat.add_sub_cancel]; exact h.db, s.log, [], ?_, by simp⟩
        rw [Nat.add_sub_cancel]
      · exact WFacts.wake h.wf (by omega) rfl rfl rfl rfl rfl hnp
      · show none = some Thread.worker ↔ s.wakeWorker.wpc.holds = true
        rw [wakeWorker_holds]; exact mwNone
      · have := delivers_snoc h.log (delivers_slice (P := Throws src) f1 (s := (stream src).drop c) (by rw [List.length_drop]; omega))
        rw [List.drop_drop] at this
        exact this
    · rw [if_neg hc]
      have he : s.eof = true := by
        rw [hcount] at hc
        rcases f4 with f4 | f4 | f4
        · exact f4
        · omega
        · exact absurd f4 hx
      rw [if_pos he]
      have hl := h.eofE he
      refine ⟨c, p, { h with wf := ?_, cf := f2, mw := mwNone, mc := mcNone, log := ?_, held := ?_ }⟩
      · intro pos k e
        exact absurd (f3.symm.trans e) (by simp)
      · exact h.wf.congr rfl rfl rfl rfl rfl (Or.inl (by rw [hcp]; simp))
      · rw [hcount] at hc
        exact delivers_snoc h.log ⟨f1, by rw [List.length_drop]; omega, rfl⟩

theorem clientStep_inv (hB : 0 < B) (hu : 6 * B < u32) (h : AInv B src s c p) : AKeeps B src s.clientStep := by
  have hcount := h.count hB hu
  have hcf := h.cf
  have hcp := h.cp
  unfold AState.clientStep
  cases hc : s.cpc with
  | idle => trivial
  | lock size =>
    rw [hc] at hcf
    simp only []
    by_cases hm : s.mutex = none
    · rw [if_pos hm]
      refine ⟨c, p, { h with wf := h.wf.congr rfl rfl rfl rfl rfl (Or.inl (by rw [hc]; simp)), cf := hcf, mw := ?_, mc := ⟨fun _ => rfl, fun _ => rfl⟩ }⟩
      refine ⟨(fun e => by cases e), fun e => ?_⟩
      have := h.mw.2 e
      rw [hm] at this; cases this
    · rw [if_neg hm]; trivial
  | check size =>
    rw [hc] at hcf
    simp only []
    have hmc := h.mc.2 (by rw [hc]; rfl)
    have hwf : ∀ pc, WFacts B src { s with cpc := pc } c p s.wpc := fun pc => h.wf.congr rfl rfl rfl rfl rfl (Or.inl (by rw [hc]; simp))
    rw [hcount]
    by_cases hp : (s.eof || decide (p - c ≥ size) || s.exc) = true
    · rw [if_pos hp]
      simp only [Bool.or_eq_true, decide_eq_true_eq] at hp
      refine ⟨c, p, { h with wf := hwf _, cf := ⟨hcf.1, hcf.2.1, hcf.2.2, ?_⟩, mc := ⟨fun _ => rfl, fun _ => hmc⟩ }⟩
      show s.eof = true ∨ c + size ≤ p ∨ s.exc = true
      rcases hp with (hp | hp) | hp
      · exact Or.inl hp
      · exact Or.inr (Or.inl (by omega))
      · exact Or.inr (Or.inr hp)
    · rw [if_neg hp]
      simp only [Bool.or_eq_true, decide_eq_true_eq, not_or, Bool.not_eq_true] at hp
      exact ⟨c, p, { h with wf := hwf _, cf := ⟨hcf.1, hcf.2.1, hcf.2.2, hp.1.1, by omega⟩, mc := ⟨fun _ => rfl, fun _ => hmc⟩ }⟩
  | park size =>
    rw [hc] at hcf
    simp only []
    have hnw := h.notWorker (by rw [hc]; rfl)
    exact ⟨c, p, { h with wf := h.wf.congr rfl rfl rfl rfl rfl (Or.inl (by rw [hc]; simp)), cf := hcf, mw := ⟨(fun e => by cases e), fun e => absurd e (by show ¬ s.wpc.holds = true; rw [hnw]; decide)⟩, mc := ⟨(fun e => by cases e), (fun e => by cases e)⟩ }⟩
  | sleep size => trivial
  | body size => exact finishRead_inv hB hu h hc
  | dlock =>
    rw [hc] at hcf
    simp only []
    by_cases hm : s.mutex = none
    · rw [if_pos hm]
      refine ⟨c, p, { h with wf := ?_, cf := ⟨rfl, hcf.2⟩, mc := ⟨fun e => absurd (hm.symm.trans e) (by simp), (fun e => by cases e)⟩ }⟩
      have hnw : s.wpc.holds = false := by
        cases hh : s.wpc.holds with
        | false => rfl
        | true => have := h.mw.2 hh; rw [hm] at this; cases this
      have hwf := h.wf
      show WFacts B src _ c p s.wpc
      generalize s.wpc = pc at *
      cases pc <;> simp only [WFacts, WPc.holds] at hwf hnw ⊢ <;> first | exact hwf | skip
      · cases hnw
      · exact ⟨hwf.1, hwf.2.1, hwf.2.2.1, hwf.2.2.2.1, fun _ => trivial⟩
      · exact Or.inr (Or.inl trivial)
    · rw [if_neg hm]; trivial
  | dnotify =>
    rw [hc] at hcf
    simp only []
    have hmc : s.mutex ≠ some .client := fun e => by have := h.mc.1 e; rw [hc] at this; cases this
    rw [wakeWorker_eq]
    have hnp : s.wpc ≠ .park := by
      intro e
      have := h.wf
      rw [e] at this
      exact absurd (this.2.2.2.2.symm.trans hcf.1) (by simp)
    refine ⟨c, p, { h with wf := WFacts.wake h.wf (Nat.le_refl _) rfl rfl rfl rfl rfl hnp, cf := hcf, mw := ?_, mc := ⟨fun e => absurd e hmc, (fun e => by cases e)⟩ }⟩
    show s.mutex = _ ↔ s.wakeWorker.wpc.holds = true
    rw [wakeWorker_holds]; exact h.mw
  | djoin =>
    rw [hc] at hcf
    simp only []
    have hmc : s.mutex ≠ some .client := fun e => by have := h.mc.1 e; rw [hc] at this; cases this
    by_cases hd : s.wpc = .done
    · rw [if_pos hd]
      exact ⟨c, p, { h with wf := h.wf.congr rfl rfl rfl rfl rfl (Or.inl (by rw [hc]; simp)), cf := ⟨hcf.1, hcf.2, hd⟩, mc := ⟨fun e => absurd e hmc, (fun e => by cases e)⟩ }⟩
    · rw [if_neg hd]; trivial
  | destroyed => trivial

theorem step_inv (hB : 0 < B) (hu : 6 * B < u32) (h : AInv B src s c p) (e : AEvent) : AKeeps B src (s.step e) := by
  cases e with
  | worker => exact workerStep_inv hB hu h
  | client => exact clientStep_inv hB hu h
  | call size =>
    unfold AState.step
    simp only []
    by_cases hc : s.cpc = .idle
    · rw [if_pos hc]
      have hmc : s.mutex ≠ some .client := fun e => by have := h.mc.1 e; rw [hc] at this; cases this
      have hcf := h.cf
      rw [hc] at hcf
      by_cases hs : size > s.blockSize
      · rw [if_pos hs]
        refine ⟨c, p, { h with held := ?_, log := delivers_snoc h.log ⟨by rw [← h.bs]; exact hs, rfl⟩, wf := h.wf.congr rfl rfl rfl rfl rfl (Or.inl (by rw [hc]; simp)), cf := by show CFacts B _ c p s.cpc; rw [hc]; exact hcf }⟩
        intro pos k e
        obtain ⟨a1, a2, a3, l1, l2, a4, a5⟩ := h.held pos k e
        refine ⟨a1, a2, a3, l1, l2 ++ [(size, .rejected)], by rw [a4]; simp, ?_⟩
        intro x hx
        rcases List.mem_append.1 hx with hx | hx
        · exact a5 x hx
        · rw [List.mem_singleton] at hx; rw [hx]
      · rw [if_neg hs]
        exact ⟨c, p, { h with live := fun q h1 h2 => h.live q (by have : c ≤ q + 0 := h1; omega) h2, held := (fun pos k e => by cases e), wf := h.wf.congr rfl rfl rfl rfl rfl (Or.inl (by rw [hc]; simp)), cf := ⟨by have := h.bs; omega, hcf, rfl⟩, mc := ⟨fun e => absurd e hmc, (fun e => by cases e)⟩ }⟩
    · rw [if_neg hc]; trivial
  | destroy =>
    unfold AState.step
    simp only []
    by_cases hc : s.cpc = .idle
    · rw [if_pos hc]
      have hmc : s.mutex ≠ some .client := fun e => by have := h.mc.1 e; rw [hc] at this; cases this
      have hcf := h.cf
      rw [hc] at hcf
      exact ⟨c, p, { h with live := fun q h1 h2 => h.live q (by have : c ≤ q + 0 := h1; omega) h2, held := (fun pos k e => by cases e), wf := h.wf.congr rfl rfl rfl rfl rfl (Or.inl (by rw [hc]; simp)), cf := ⟨hcf, rfl⟩, mc := ⟨fun e => absurd e hmc, (fun e => by cases e)⟩ }⟩
    · rw [if_neg hc]; trivial
  | spuriousWorker =>
    unfold AState.step
    simp only []
    by_cases hw : s.wpc = .sleep
    · rw [if_pos hw]
      have hmw : s.mutex ≠ some .worker := fun e => by have := h.mw.1 e; rw [hw] at this; cases this
      have hwf := h.wf
      rw [hw] at hwf
      exact ⟨c, p, { h with wf := ⟨hwf.1, hwf.2.1, hwf.2.2.1⟩, cf := h.cf.congr rfl rfl rfl rfl (Or.inl (by rw [hw]; decide)), mw := ⟨fun e => absurd e hmw, (fun e => by cases e)⟩ }⟩
    · rw [if_neg hw]; trivial
  | spuriousClient =>
    unfold AState.step
    simp only []
    cases hc : s.cpc with
    | sleep size =>
      have hmc : s.mutex ≠ some .client := fun e => by have := h.mc.1 e; rw [hc] at this; cases this
      have hcf := h.cf
      rw [hc] at hcf
      exact ⟨c, p, { h with wf := h.wf.congr rfl rfl rfl rfl rfl (Or.inl (by rw [hc]; simp)), cf := ⟨hcf.1, hcf.2.1, hcf.2.2.1⟩, mc := ⟨fun e => absurd e hmc, (fun e => by cases e)⟩ }⟩
    | _ => trivial

theorem run_inv (hB : 0 < B) (hu : 6 * B < u32) : ∀ (es : List AEvent) (s : AState) (c p : Nat), AInv B src s c p → AKeeps B src (s.run es)
  | [], _, c, p, h => ⟨c, p, h⟩
  | e :: es, s, c, p, h => by
    have := step_inv hB hu h e
    rw [AState.run]
    cases hs : s.step e with
    | ok s1 =>
      rw [hs] at this
      obtain ⟨c1, p1, h1⟩ := this
      exact run_inv hB hu es s1 c1 p1 h1
    | error => trivial
    | ub => rw [hs] at this; exact this

end RK
