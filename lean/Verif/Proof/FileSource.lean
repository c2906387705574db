import Verif.Model.FileSource
import Verif.Proof.History
/-! Helper lemmas for files as data sources. -/
namespace RK
open Spec

theorem look_set {t : FdTable} {fd k : Nat} {v : Option OpenFile} (h : fd < t.length) :
    FdTable.look (t.set fd v) k = if k = fd then v else t.look k := by
  unfold FdTable.look
  by_cases hk : k = fd
  · subst hk; rw [List.getElem?_set_self h, if_pos rfl]; rfl
  · rw [List.getElem?_set_ne (by omega), if_neg hk]

theorem look_lt {t : FdTable} {fd : Nat} {f : OpenFile} (h : t.look fd = some f) : fd < t.length := by
  unfold FdTable.look at h
  by_contra hc
  rw [List.getElem?_eq_none (by omega)] at h
  cases h

theorem look_close {t : FdTable} {fd k : Nat} : FdTable.look (t.close fd) k = if k = fd then none else t.look k := by
  by_cases h : fd < t.length
  · exact look_set h
  · unfold FdTable.close
    rw [List.set_eq_of_length_le (by omega)]
    split
    · rename_i hk; subst hk
      unfold FdTable.look
      rw [List.getElem?_eq_none (by omega)]; rfl
    · rfl

theorem look_alloc (t : FdTable) (f : OpenFile) : t.look (t.alloc f).2 = none ∧
    ∀ k, FdTable.look (t.alloc f).1 k = if k = (t.alloc f).2 then some f else t.look k := by
  unfold FdTable.alloc
  simp only
  by_cases h : t.findIdx Option.isNone < t.length
  · rw [if_pos h]
    refine ⟨?_, fun k => look_set h⟩
    have := List.findIdx_getElem (w := h)
    unfold FdTable.look
    rw [List.getElem?_eq_getElem h]
    simpa using this
  · rw [if_neg h]
    have hl : t.findIdx Option.isNone = t.length := by
      have := List.findIdx_le_length (p := Option.isNone) (xs := t); omega
    rw [hl]
    refine ⟨by unfold FdTable.look; rw [List.getElem?_eq_none (by omega)]; rfl, fun k => ?_⟩
    unfold FdTable.look
    by_cases hk : k = t.length
    · subst hk; simp
    · rw [if_neg hk]
      by_cases hlt : k < t.length
      · rw [List.getElem?_append_left hlt]
      · rw [List.getElem?_eq_none (by simp; omega), List.getElem?_eq_none (by omega)]

/-- What object with descriptor `o` shows. -/
def viewOf (t : FdTable) (o : Option Nat) : FileView Byte := o.bind fun fd => (t.look fd).map fun f => (f.content, f.pos)

/-- The descriptors of the objects are open and distinct. -/
structure FdOk (s : FileState) : Prop where
  isOpen : ∀ i fd : Nat, s.objs[i]? = some (some fd) → ∃ f, s.table.look fd = some f
  distinct : ∀ i j fd : Nat, s.objs[i]? = some (some fd) → s.objs[j]? = some (some fd) → i = j

structure FileRep (s : FileState) (v : List (FileView Byte)) : Prop where
  ok : FdOk s
  view : v = s.objs.map (viewOf s.table)

theorem viewOf_congr {t t' : FdTable} {o : Option Nat} (h : ∀ fd, o = some fd → t'.look fd = t.look fd) : viewOf t' o = viewOf t o := by
  cases o with
  | none => rfl
  | some fd => simp only [viewOf, Option.bind_some, h fd rfl]

/-- Changing the table at descriptors that no other object uses. -/
theorem map_view_set {t t' : FdTable} {objs : List (Option Nat)} {i : Nat} {o : Option Nat} {v : FileView Byte}
    (h : ∀ k fd : Nat, k ≠ i → objs[k]? = some (some fd) → t'.look fd = t.look fd) (hv : viewOf t' o = v) :
    (objs.set i o).map (viewOf t') = (objs.map (viewOf t)).set i v := by
  apply List.ext_getElem?
  intro k
  rw [List.getElem?_map, List.getElem?_set, List.getElem?_set, List.length_map]
  by_cases hk : i = k
  · subst hk
    simp only [if_true]
    split
    · rw [Option.map_some, hv]
    · rfl
  · rw [if_neg hk, if_neg hk, List.getElem?_map]
    cases ho : objs[k]? with
    | none => rfl
    | some o' =>
      simp only [Option.map_some]
      rw [viewOf_congr]
      intro fd hfd
      subst hfd
      exact h k fd (by omega) ho

theorem getElem?_set_some {α : Type} {l : List α} {i k : Nat} {x y : α} (h : (l.set i x)[k]? = some y) :
    (k = i ∧ y = x) ∨ (k ≠ i ∧ l[k]? = some y) := by
  rw [List.getElem?_set] at h
  split at h
  · rename_i hik
    split at h
    · injection h with h; exact Or.inl ⟨hik.symm, h.symm⟩
    · cases h
  · rename_i hik
    exact Or.inr ⟨fun hk => hik hk.symm, h⟩

theorem getElem?_snoc_some {α : Type} {l : List α} {k : Nat} {x y : α} (h : (l ++ [x])[k]? = some y) :
    (k = l.length ∧ y = x) ∨ (k < l.length ∧ l[k]? = some y) := by
  by_cases hk : k < l.length
  · rw [List.getElem?_append_left hk] at h; exact Or.inr ⟨hk, h⟩
  · rw [List.getElem?_append_right (by omega)] at h
    have : k - l.length = 0 := by
      by_contra hc
      rw [List.getElem?_eq_none (by simp; omega)] at h; cases h
    rw [this] at h
    simp only [List.getElem?_cons_zero, Option.some.injEq] at h
    exact Or.inl ⟨by omega, h.symm⟩

theorem setPos {s : FileState} (hopen : ∀ i fd : Nat, s.objs[i]? = some (some fd) → ∃ f, s.table.look fd = some f)
    (hdist : ∀ i j fd : Nat, s.objs[i]? = some (some fd) → s.objs[j]? = some (some fd) → i = j) {i fd : Nat} {f : OpenFile}
    (ho : s.objs[i]? = some (some fd)) (hf : s.table.look fd = some f) (f' : OpenFile) (hc : f'.content = f.content) :
    FileRep ⟨s.table.set fd (some f'), s.objs⟩ ((s.objs.map (viewOf s.table)).set i (some (f.content, f'.pos))) := by
  have hlt := look_lt hf
  refine ⟨⟨?_, hdist⟩, ?_⟩
  · intro k fd' hk
    simp only
    rw [look_set hlt]
    split
    · exact ⟨_, rfl⟩
    · exact hopen k fd' hk
  · simp only
    have := map_view_set (t := s.table) (t' := s.table.set fd (some f')) (objs := s.objs) (i := i) (o := some fd)
      (v := some (f.content, f'.pos)) (by
        intro k fd' hk hfd
        rw [look_set hlt, if_neg]
        rintro rfl
        exact hk (hdist k i fd' hfd ho)) (by
        simp only [viewOf, Option.bind_some, look_set hlt, if_true, Option.map_some, hc])
    rw [← this]
    congr 1
    apply List.ext_getElem?
    intro k
    rw [List.getElem?_set]
    split
    · rename_i hik; subst hik
      rw [if_pos (List.getElem?_eq_some_iff.1 ho).1, ho]
    · rfl

theorem fileCall_spec {s : FileState} {v : List (FileView Byte)} {op : FileOp Byte} (h : FileRep s v) (hp : FilePre v op) :
    ∃ s' out v', s.call op = some (s', out) ∧ FileStep v op out v' ∧ FileRep s' v' := by
  obtain ⟨⟨hopen, hdist⟩, rfl⟩ := h
  have hlen : (s.objs.map (viewOf s.table)).length = s.objs.length := List.length_map _
  cases op with
  | create =>
    refine ⟨_, _, _, rfl, ⟨rfl, rfl⟩, ⟨?_, ?_⟩, by simp [viewOf]⟩
    · intro i fd hi
      rcases getElem?_snoc_some hi with ⟨_, hi⟩ | ⟨_, hi⟩
      · cases hi
      · exact hopen i fd hi
    · intro i j fd hi hj
      rcases getElem?_snoc_some hi with ⟨_, hi⟩ | ⟨_, hi⟩
      · cases hi
      · rcases getElem?_snoc_some hj with ⟨_, hj⟩ | ⟨_, hj⟩
        · cases hj
        · exact hdist i j fd hi hj
  | «open» i found =>
    have hi : i < s.objs.length := by rw [← hlen]; exact hp
    obtain ⟨old, ho⟩ := rd_isSome hi
    cases found with
    | none =>
      refine ⟨s, .error, _, ?_, ⟨rfl, rfl⟩, ⟨hopen, hdist⟩, rfl⟩
      simp only [FileState.call, FileState.openFile, ho, Option.bind_eq_bind, Option.bind_some]
    | some c =>
      obtain ⟨hfree, hal⟩ := look_alloc s.table ⟨c, 0⟩
      have key : ∃ t', s.call (.open i (some c)) = some (⟨t', s.objs.set i (some (s.table.alloc ⟨c, 0⟩).2)⟩, .unit) ∧
          ∀ k, FdTable.look t' k = if k = (s.table.alloc ⟨c, 0⟩).2 then some ⟨c, 0⟩ else if old = some k then none else s.table.look k := by
        cases old with
        | none =>
          refine ⟨(s.table.alloc ⟨c, 0⟩).1, ?_, fun k => by simp [hal]⟩
          simp only [FileState.call, FileState.openFile, ho, wr_lt hi, Option.bind_eq_bind, Option.bind_some]
        | some o =>
          refine ⟨FdTable.close (s.table.alloc ⟨c, 0⟩).1 o, ?_, fun k => ?_⟩
          · simp only [FileState.call, FileState.openFile, ho, wr_lt hi, Option.bind_eq_bind, Option.bind_some]
          · obtain ⟨f, hf⟩ := hopen i o ho
            have hne : o ≠ (s.table.alloc ⟨c, 0⟩).2 := by
              intro he; rw [he, hfree] at hf; cases hf
            rw [look_close, hal]
            by_cases hk : k = o
            · subst hk; simp [hne]
            · have hk' : ¬ o = k := fun hh => hk hh.symm
              simp [hk, hk']
      obtain ⟨t', e, hl⟩ := key
      have hother : ∀ k fd : Nat, k ≠ i → s.objs[k]? = some (some fd) → FdTable.look t' fd = s.table.look fd := by
        intro k fd hk hfd
        obtain ⟨f, hf⟩ := hopen k fd hfd
        have h1 : fd ≠ (s.table.alloc ⟨c, 0⟩).2 := by
          intro he; rw [he, hfree] at hf; cases hf
        have h2 : old ≠ some fd := by
          intro he; subst he; exact hk (hdist k i fd hfd ho)
        rw [hl, if_neg h1, if_neg h2]
      refine ⟨_, _, _, e, ⟨rfl, rfl⟩, ⟨?_, ?_⟩, ?_⟩
      · intro k fd hk
        rcases getElem?_set_some hk with ⟨_, hk⟩ | ⟨hki, hk⟩
        · injection hk with hk; subst hk
          exact ⟨⟨c, 0⟩, by simp [hl]⟩
        · obtain ⟨f, hf⟩ := hopen k fd hk
          exact ⟨f, by rw [← hf]; exact hother k fd hki hk⟩
      · intro k l fd hk hl'
        rcases getElem?_set_some hk with ⟨hke, hk⟩ | ⟨hki, hk⟩
        · injection hk with hk; subst hk
          rcases getElem?_set_some hl' with ⟨hle, _⟩ | ⟨hli, hl'⟩
          · omega
          · obtain ⟨f, hf⟩ := hopen l _ hl'
            rw [hfree] at hf; cases hf
        · rcases getElem?_set_some hl' with ⟨hle, hl'⟩ | ⟨hli, hl'⟩
          · injection hl' with hl'; subst hl'
            obtain ⟨f, hf⟩ := hopen k _ hk
            rw [hfree] at hf; cases hf
          · exact hdist k l fd hk hl'
      · exact (map_view_set hother (by simp [viewOf, hl])).symm
  | close i =>
    have hi : i < s.objs.length := by rw [← hlen]; exact hp
    obtain ⟨old, ho⟩ := rd_isSome hi
    cases old with
    | none =>
      refine ⟨s, .unit, _, by simp only [FileState.call, FileState.closeFile, ho, Option.bind_eq_bind, Option.bind_some], ⟨rfl, rfl⟩,
        ⟨hopen, hdist⟩, ?_⟩
      have ho' : s.objs[i]? = some none := ho
      have := map_view_set (t := s.table) (t' := s.table) (objs := s.objs) (i := i) (o := none) (v := none) (fun _ _ _ _ => rfl) rfl
      rw [← this]
      congr 1
      apply List.ext_getElem?
      intro k
      rw [List.getElem?_set]
      split
      · rename_i hik; subst hik; rw [ho']
      · rfl
    | some fd =>
      have e : s.call (.close i) = some (⟨s.table.close fd, s.objs.set i none⟩, .unit) := by
        simp only [FileState.call, FileState.closeFile, ho, wr_lt hi, Option.bind_eq_bind, Option.bind_some]
      have hother : ∀ k fd' : Nat, k ≠ i → s.objs[k]? = some (some fd') → FdTable.look (s.table.close fd) fd' = s.table.look fd' := by
        intro k fd' hk hfd
        rw [look_close, if_neg]
        rintro rfl
        exact hk (hdist k i fd' hfd ho)
      refine ⟨_, _, _, e, ⟨rfl, rfl⟩, ⟨?_, ?_⟩, (map_view_set (o := none) (v := none) hother rfl).symm⟩
      · intro k fd' hk
        rcases getElem?_set_some hk with ⟨_, hk⟩ | ⟨hki, hk⟩
        · cases hk
        · obtain ⟨f, hf⟩ := hopen k fd' hk
          exact ⟨f, by rw [← hf]; exact hother k fd' hki hk⟩
      · intro k l fd' hk hl
        rcases getElem?_set_some hk with ⟨hke, hk⟩ | ⟨hki, hk⟩
        · cases hk
        · rcases getElem?_set_some hl with ⟨hle, hl⟩ | ⟨hli, hl⟩
          · cases hl
          · exact hdist k l fd' hk hl
  | rewind i =>
    have hi : i < s.objs.length := by rw [← hlen]; exact hp
    obtain ⟨old, ho⟩ := rd_isSome hi
    have ho' : s.objs[i]? = some old := ho
    cases old with
    | none =>
      refine ⟨s, .error, _, by simp only [FileState.call, FileState.rewind, ho, Option.bind_eq_bind, Option.bind_some, Option.bind_none],
        Or.inl ⟨?_, rfl, rfl⟩, ⟨hopen, hdist⟩, rfl⟩
      rw [List.getElem?_map, ho']; rfl
    | some fd =>
      obtain ⟨f, hf⟩ := hopen i fd ho
      have e : s.call (.rewind i) = some (⟨s.table.set fd (some { f with pos := 0 }), s.objs⟩, .unit) := by
        simp only [FileState.call, FileState.rewind, FdTable.seekStart, ho, hf, Option.bind_eq_bind, Option.bind_some]
      exact ⟨_, _, _, e, Or.inr ⟨f.content, f.pos, by rw [List.getElem?_map, ho']; simp [viewOf, hf], rfl, rfl⟩,
        setPos hopen hdist ho' hf _ rfl⟩
  | read i count deliver =>
    have hi : i < s.objs.length := by rw [← hlen]; exact hp
    obtain ⟨old, ho⟩ := rd_isSome hi
    have ho' : s.objs[i]? = some old := ho
    cases old with
    | none =>
      refine ⟨s, .error, _, by simp only [FileState.call, FileState.readFile, FileState.myRead, ho, Option.bind_eq_bind, Option.bind_some, Option.bind_none],
        Or.inl ⟨?_, rfl, rfl⟩, ⟨hopen, hdist⟩, rfl⟩
      rw [List.getElem?_map, ho']; rfl
    | some fd =>
      obtain ⟨f, hf⟩ := hopen i fd ho
      have e : s.call (.read i count deliver) = some (⟨s.table.set fd (some { f with pos := f.pos +
          ((f.content.drop f.pos).take (min count (max deliver 1))).length }), s.objs⟩,
          .bytes ((f.content.drop f.pos).take (min count (max deliver 1)))) := by
        simp only [FileState.call, FileState.readFile, FileState.myRead, FdTable.read, ho, hf, Option.bind_eq_bind, Option.bind_some]
      refine ⟨_, _, _, e, Or.inr ⟨f.content, f.pos, _, by rw [List.getElem?_map, ho']; simp [viewOf, hf], rfl,
        ⟨_, (List.take_append_drop _ _).symm⟩, ?_, ?_, rfl⟩, setPos hopen hdist ho' hf _ rfl⟩
      · rw [List.length_take]; omega
      · intro hnil
        have := congrArg List.length hnil
        rw [List.length_take, List.length_drop, List.length_nil] at this
        omega
  | construct i =>
    have hi : i < s.objs.length := by rw [← hlen]; exact hp
    obtain ⟨o, ho⟩ := rd_isSome hi
    have ho' : s.objs[i]? = some o := ho
    have e : s.call (.construct i) = some (⟨s.table, s.objs.set i none ++ [o]⟩, .unit) := by
      simp only [FileState.call, ho, wr_lt hi, Option.bind_eq_bind, Option.bind_some]
    refine ⟨_, _, _, e, ⟨viewOf s.table o, by rw [List.getElem?_map, ho']; rfl, rfl, rfl⟩, ⟨?_, ?_⟩, ?_⟩
    · intro k fd hk
      rcases getElem?_snoc_some hk with ⟨_, hk⟩ | ⟨_, hk⟩
      · exact hopen i fd (by rw [ho', ← hk])
      · rcases getElem?_set_some hk with ⟨_, hk⟩ | ⟨_, hk⟩
        · cases hk
        · exact hopen k fd hk
    · intro k l fd hk hl
      rcases getElem?_snoc_some hk with ⟨hk1, hk⟩ | ⟨_, hk⟩
      · rcases getElem?_snoc_some hl with ⟨hl1, hl⟩ | ⟨_, hl⟩
        · omega
        · rcases getElem?_set_some hl with ⟨_, hl⟩ | ⟨hli, hl⟩
          · cases hl
          · exact absurd (hdist l i fd hl (by rw [ho', ← hk])) hli
      · rcases getElem?_set_some hk with ⟨_, hk⟩ | ⟨hki, hk⟩
        · cases hk
        · rcases getElem?_snoc_some hl with ⟨hl1, hl⟩ | ⟨_, hl⟩
          · exact absurd (hdist k i fd hk (by rw [ho', ← hl])) hki
          · rcases getElem?_set_some hl with ⟨_, hl⟩ | ⟨hli, hl⟩
            · cases hl
            · exact hdist k l fd hk hl
    · rw [List.map_append, map_view_set (t := s.table) (v := none) (fun _ _ _ _ => rfl) rfl]
      rfl
  | assign i j =>
    have hi : i < s.objs.length := by rw [← hlen]; exact hp.1
    have hj : j < s.objs.length := by rw [← hlen]; exact hp.2
    obtain ⟨o, ho⟩ := rd_isSome hj
    have ho' : s.objs[j]? = some o := ho
    have e : s.call (.assign i j) = some (⟨s.table, (s.objs.set i o).set j none⟩, .unit) := by
      simp only [FileState.call, ho, wr_lt hi, wr_lt (show j < (s.objs.set i o).length by rw [List.length_set]; exact hj),
        Option.bind_eq_bind, Option.bind_some]
    have back : ∀ k fd : Nat, ((s.objs.set i o).set j none)[k]? = some (some fd) →
        (k = i ∧ i ≠ j ∧ s.objs[j]? = some (some fd)) ∨ (k ≠ i ∧ k ≠ j ∧ s.objs[k]? = some (some fd)) := by
      intro k fd hk
      rcases getElem?_set_some hk with ⟨_, hk⟩ | ⟨hkj, hk⟩
      · cases hk
      · rcases getElem?_set_some hk with ⟨hke, hk⟩ | ⟨hki, hk⟩
        · exact Or.inl ⟨hke, by omega, by rw [ho', ← hk]⟩
        · exact Or.inr ⟨hki, hkj, hk⟩
    refine ⟨_, _, _, e, ⟨viewOf s.table o, by rw [List.getElem?_map, ho']; rfl, rfl, rfl⟩, ⟨?_, ?_⟩, ?_⟩
    · intro k fd hk
      rcases back k fd hk with ⟨_, _, h⟩ | ⟨_, _, h⟩
      · exact hopen j fd h
      · exact hopen k fd h
    · intro k l fd hk hl
      rcases back k fd hk with ⟨h1, h2, h3⟩ | ⟨h1, h2, h3⟩
      · rcases back l fd hl with ⟨g1, g2, g3⟩ | ⟨g1, g2, g3⟩
        · omega
        · exact absurd (hdist l j fd g3 h3) g2
      · rcases back l fd hl with ⟨g1, g2, g3⟩ | ⟨g1, g2, g3⟩
        · exact absurd (hdist k j fd h3 g3) h2
        · exact hdist k l fd h3 g3
    · rw [map_view_set (t := s.table) (v := none) (fun _ _ _ _ => rfl) rfl, map_view_set (t := s.table) (fun _ _ _ _ => rfl) rfl]

/-! ### Descriptors -/

/-- `fd` is open and belongs to no object. -/
def Orphan (s : FileState) (fd : Nat) : Prop := (∃ f, s.table.look fd = some f) ∧ ∀ i : Nat, s.objs[i]? ≠ some (some fd)

theorem call_pre {s s' : FileState} {op : FileOp Byte} {out : FileOut Byte} (h : s.call op = some (s', out)) :
    FilePre (s.objs.map (viewOf s.table)) op := by
  have hlen : (s.objs.map (viewOf s.table)).length = s.objs.length := List.length_map _
  cases op with
  | create => trivial
  | «open» i found =>
    simp only [FileState.call, FileState.openFile, Option.bind_eq_bind, Option.bind_eq_some_iff] at h
    obtain ⟨_, h, _⟩ := h
    simpa [FilePre] using rd_some_lt h
  | close i =>
    simp only [FileState.call, FileState.closeFile, Option.bind_eq_bind, Option.bind_eq_some_iff] at h
    obtain ⟨_, h, _⟩ := h
    simpa [FilePre] using rd_some_lt h
  | rewind i =>
    simp only [FileState.call, FileState.rewind, Option.bind_eq_bind, Option.bind_eq_some_iff] at h
    obtain ⟨_, h, _⟩ := h
    simpa [FilePre] using rd_some_lt h
  | read i c d =>
    simp only [FileState.call, FileState.readFile, Option.bind_eq_bind, Option.bind_eq_some_iff] at h
    obtain ⟨_, h, _⟩ := h
    simpa [FilePre] using rd_some_lt h
  | construct i =>
    simp only [FileState.call, Option.bind_eq_bind, Option.bind_eq_some_iff] at h
    obtain ⟨_, h, _⟩ := h
    simpa [FilePre] using rd_some_lt h
  | assign i j =>
    simp only [FileState.call, Option.bind_eq_bind, Option.bind_eq_some_iff] at h
    obtain ⟨_, h1, _, h2, _⟩ := h
    have := (wr_eq_some.1 h2).1
    have := rd_some_lt h1
    simp only [FilePre, List.length_map]
    omega

theorem fdOk_call {s s' : FileState} {op : FileOp Byte} {out : FileOut Byte} (h : FdOk s) (e : s.call op = some (s', out)) : FdOk s' := by
  obtain ⟨s1, out1, v', e1, _, h1⟩ := fileCall_spec (v := s.objs.map (viewOf s.table)) ⟨h, rfl⟩ (call_pre e)
  rw [e] at e1
  injection e1 with e1
  cases e1
  exact h1.ok

theorem movePos {s : FileState} {i fd : Nat} {f f' : OpenFile} (ho : s.objs[i]? = some (some fd)) (hf : s.table.look fd = some f)
    {P : Prop} :
    (∀ fd', (∃ g, FdTable.look (s.table.set fd (some f')) fd' = some g) → (∃ g, s.table.look fd' = some g) ∨ ∃ i : Nat, s.objs[i]? = some (some fd')) ∧
    (∀ fd' g, s.table.look fd' = some g → FdTable.look (s.table.set fd (some f')) fd' = some g ∨ ∃ i : Nat, s.objs[i]? = some (some fd')) ∧
    (∀ (i : Nat) fd', s.objs[i]? = some (some fd') → s.table.look fd' = none ∨ ∃ j : Nat, s.objs[j]? = some (some fd')) ∧
    (P → ∀ (i : Nat) fd', s.objs[i]? = some (some fd') → (∃ g, FdTable.look (s.table.set fd (some f')) fd' = some g) →
      ∃ j : Nat, s.objs[j]? = some (some fd')) := by
  have hlt := look_lt hf
  refine ⟨?_, ?_, fun i fd' hi => Or.inr ⟨i, hi⟩, fun _ i fd' hi _ => ⟨i, hi⟩⟩
  · rintro fd' ⟨g, hg⟩
    rw [look_set hlt] at hg
    split at hg
    · rename_i hk; subst hk; exact Or.inl ⟨f, hf⟩
    · exact Or.inl ⟨g, hg⟩
  · intro fd' g hg
    by_cases hk : fd' = fd
    · subst hk; exact Or.inr ⟨i, ho⟩
    · left; rw [look_set hlt, if_neg hk]; exact hg

/-- What a call does to the descriptors: it may close descriptors of objects, open a free one, and hand descriptors over;
every descriptor that an object refers to afterwards was referred to before or was free. -/
theorem call_descriptors {s s' : FileState} {op : FileOp Byte} {out : FileOut Byte} (h : FdOk s) (e : s.call op = some (s', out)) :
    (∀ fd, (∃ f, s'.table.look fd = some f) → (∃ f, s.table.look fd = some f) ∨ ∃ i : Nat, s'.objs[i]? = some (some fd)) ∧
    (∀ fd f, s.table.look fd = some f → s'.table.look fd = some f ∨ ∃ i : Nat, s.objs[i]? = some (some fd)) ∧
    (∀ (i : Nat) fd, s'.objs[i]? = some (some fd) → s.table.look fd = none ∨ ∃ j : Nat, s.objs[j]? = some (some fd)) ∧
    ((∀ i j, op = .assign i j → s.objs[i]? = some none) →
      ∀ (i : Nat) fd, s.objs[i]? = some (some fd) → (∃ f, s'.table.look fd = some f) → ∃ j : Nat, s'.objs[j]? = some (some fd)) := by
  have hp := call_pre e
  have hlen : (s.objs.map (viewOf s.table)).length = s.objs.length := List.length_map _
  cases op with
  | create =>
    cases e
    refine ⟨fun fd h => Or.inl h, fun fd f hf => Or.inl hf, ?_, ?_⟩
    · intro i fd hi
      rcases getElem?_snoc_some hi with ⟨_, hi⟩ | ⟨_, hi⟩
      · cases hi
      · exact Or.inr ⟨i, hi⟩
    · intro _ i fd hi _
      exact ⟨i, by simp only; rw [List.getElem?_append_left (List.getElem?_eq_some_iff.1 hi).1]; exact hi⟩
  | «open» i found =>
    have hi : i < s.objs.length := by rw [← hlen]; exact hp
    obtain ⟨old, ho⟩ := rd_isSome hi
    have ho' : s.objs[i]? = some old := ho
    cases found with
    | none =>
      simp only [FileState.call, FileState.openFile, ho, Option.bind_eq_bind, Option.bind_some] at e
      cases e
      exact ⟨fun fd h => Or.inl h, fun fd f hf => Or.inl hf, fun i fd hi => Or.inr ⟨i, hi⟩, fun _ i fd hi _ => ⟨i, hi⟩⟩
    | some c =>
      obtain ⟨hfree, hal⟩ := look_alloc s.table ⟨c, 0⟩
      simp only [FileState.call, FileState.openFile, ho, wr_lt hi, Option.bind_eq_bind, Option.bind_some, Option.some.injEq,
        Prod.mk.injEq] at e
      generalize hfd : (s.table.alloc ⟨c, 0⟩).2 = nfd at *
      have key : ∃ t', s' = ⟨t', s.objs.set i (some nfd)⟩ ∧
          ∀ k, FdTable.look t' k = if old = some k then none else if k = nfd then some ⟨c, 0⟩ else s.table.look k := by
        refine ⟨_, e.1.symm, fun k => ?_⟩
        cases old with
        | none => simp only [hal]; simp
        | some o =>
          simp only
          rw [look_close, hal]
          by_cases hk : k = o
          · subst hk; simp
          · have : ¬ o = k := fun hh => hk hh.symm
            simp [hk, this]
      obtain ⟨t', rfl, hl⟩ := key
      refine ⟨?_, ?_, ?_, ?_⟩
      · rintro fd ⟨f, hf⟩
        simp only at hf
        rw [hl] at hf
        split at hf
        · cases hf
        · split at hf
          · rename_i hk
            exact Or.inr ⟨i, by simp only; rw [List.getElem?_set_self hi, hk]⟩
          · exact Or.inl ⟨f, hf⟩
      · intro fd f hf
        by_cases hold : old = some fd
        · exact Or.inr ⟨i, by rw [ho', hold]⟩
        · left
          simp only
          rw [hl, if_neg hold, if_neg]
          · exact hf
          · rintro rfl; rw [hfree] at hf; cases hf
      · intro k fd hk
        rcases getElem?_set_some hk with ⟨_, hk⟩ | ⟨_, hk⟩
        · injection hk with hk
          left; rw [hk]; exact hfree
        · exact Or.inr ⟨k, hk⟩
      · rintro _ k fd hk ⟨f, hf⟩
        by_cases hki : k = i
        · subst hki
          rw [ho'] at hk
          injection hk with hk
          simp only at hf
          rw [hl, if_pos hk] at hf
          cases hf
        · exact ⟨k, by simp only; rw [List.getElem?_set_ne (by omega)]; exact hk⟩
  | close i =>
    have hi : i < s.objs.length := by rw [← hlen]; exact hp
    obtain ⟨old, ho⟩ := rd_isSome hi
    have ho' : s.objs[i]? = some old := ho
    cases old with
    | none =>
      simp only [FileState.call, FileState.closeFile, ho, Option.bind_eq_bind, Option.bind_some] at e
      cases e
      exact ⟨fun fd h => Or.inl h, fun fd f hf => Or.inl hf, fun i fd hi => Or.inr ⟨i, hi⟩, fun _ i fd hi _ => ⟨i, hi⟩⟩
    | some o =>
      simp only [FileState.call, FileState.closeFile, ho, wr_lt hi, Option.bind_eq_bind, Option.bind_some, Option.some.injEq,
        Prod.mk.injEq] at e
      obtain ⟨rfl, _⟩ := e
      refine ⟨?_, ?_, ?_, ?_⟩
      · rintro fd ⟨f, hf⟩
        simp only at hf
        rw [look_close] at hf
        split at hf
        · cases hf
        · exact Or.inl ⟨f, hf⟩
      · intro fd f hf
        by_cases hold : fd = o
        · exact Or.inr ⟨i, by rw [ho', hold]⟩
        · left
          simp only
          rw [look_close, if_neg hold]
          exact hf
      · intro k fd hk
        rcases getElem?_set_some hk with ⟨_, hk⟩ | ⟨_, hk⟩
        · cases hk
        · exact Or.inr ⟨k, hk⟩
      · rintro _ k fd hk ⟨f, hf⟩
        by_cases hki : k = i
        · subst hki
          rw [ho'] at hk
          injection hk with hk
          injection hk with hk
          simp only at hf
          rw [look_close, if_pos hk.symm] at hf
          cases hf
        · exact ⟨k, by simp only; rw [List.getElem?_set_ne (by omega)]; exact hk⟩
  | rewind i =>
    have hi : i < s.objs.length := by rw [← hlen]; exact hp
    obtain ⟨old, ho⟩ := rd_isSome hi
    have ho' : s.objs[i]? = some old := ho
    cases old with
    | none =>
      simp only [FileState.call, FileState.rewind, ho, Option.bind_eq_bind, Option.bind_some, Option.bind_none] at e
      cases e
      exact ⟨fun fd h => Or.inl h, fun fd f hf => Or.inl hf, fun i fd hi => Or.inr ⟨i, hi⟩, fun _ i fd hi _ => ⟨i, hi⟩⟩
    | some o =>
      obtain ⟨f, hf⟩ := h.isOpen i o ho
      simp only [FileState.call, FileState.rewind, FdTable.seekStart, ho, hf, Option.bind_eq_bind, Option.bind_some, Option.some.injEq,
        Prod.mk.injEq] at e
      obtain ⟨rfl, _⟩ := e
      exact movePos ho' hf
  | read i count deliver =>
    have hi : i < s.objs.length := by rw [← hlen]; exact hp
    obtain ⟨old, ho⟩ := rd_isSome hi
    have ho' : s.objs[i]? = some old := ho
    cases old with
    | none =>
      simp only [FileState.call, FileState.readFile, FileState.myRead, ho, Option.bind_eq_bind, Option.bind_some, Option.bind_none] at e
      cases e
      exact ⟨fun fd h => Or.inl h, fun fd f hf => Or.inl hf, fun i fd hi => Or.inr ⟨i, hi⟩, fun _ i fd hi _ => ⟨i, hi⟩⟩
    | some o =>
      obtain ⟨f, hf⟩ := h.isOpen i o ho
      simp only [FileState.call, FileState.readFile, FileState.myRead, FdTable.read, ho, hf, Option.bind_eq_bind, Option.bind_some,
        Option.some.injEq, Prod.mk.injEq] at e
      obtain ⟨rfl, _⟩ := e
      exact movePos ho' hf
  | construct i =>
    have hi : i < s.objs.length := by rw [← hlen]; exact hp
    obtain ⟨o, ho⟩ := rd_isSome hi
    have ho' : s.objs[i]? = some o := ho
    simp only [FileState.call, ho, wr_lt hi, Option.bind_eq_bind, Option.bind_some, Option.some.injEq, Prod.mk.injEq] at e
    obtain ⟨rfl, _⟩ := e
    refine ⟨fun fd h => Or.inl h, fun fd f hf => Or.inl hf, ?_, ?_⟩
    · intro k fd hk
      rcases getElem?_snoc_some hk with ⟨_, hk⟩ | ⟨_, hk⟩
      · exact Or.inr ⟨i, by rw [ho', ← hk]⟩
      · rcases getElem?_set_some hk with ⟨_, hk⟩ | ⟨_, hk⟩
        · cases hk
        · exact Or.inr ⟨k, hk⟩
    · rintro _ k fd hk _
      simp only
      by_cases hki : k = i
      · subst hki
        rw [ho'] at hk
        refine ⟨(s.objs.set k none).length, ?_⟩
        rw [List.getElem?_append_right (Nat.le_refl _), Nat.sub_self]
        exact hk
      · refine ⟨k, ?_⟩
        rw [List.getElem?_append_left (by rw [List.length_set]; exact (List.getElem?_eq_some_iff.1 hk).1), List.getElem?_set_ne (by omega)]
        exact hk
  | assign i j =>
    have hi : i < s.objs.length := by rw [← hlen]; exact hp.1
    have hj : j < s.objs.length := by rw [← hlen]; exact hp.2
    obtain ⟨o, ho⟩ := rd_isSome hj
    have ho' : s.objs[j]? = some o := ho
    simp only [FileState.call, ho, wr_lt hi, wr_lt (show j < (s.objs.set i o).length by rw [List.length_set]; exact hj),
        Option.bind_eq_bind, Option.bind_some, Option.some.injEq, Prod.mk.injEq] at e
    obtain ⟨rfl, _⟩ := e
    refine ⟨fun fd h => Or.inl h, fun fd f hf => Or.inl hf, ?_, ?_⟩
    · intro k fd hk
      rcases getElem?_set_some hk with ⟨_, hk⟩ | ⟨_, hk⟩
      · cases hk
      · rcases getElem?_set_some hk with ⟨_, hk⟩ | ⟨_, hk⟩
        · exact Or.inr ⟨j, by rw [ho', ← hk]⟩
        · exact Or.inr ⟨k, hk⟩
    · rintro hc k fd hk _
      have hcl := hc i j rfl
      simp only
      by_cases hkj : k = j
      · subst hkj
        have hik : i ≠ k := by rintro rfl; rw [hk] at hcl; cases hcl
        rw [ho'] at hk
        exact ⟨i, by rw [List.getElem?_set_ne (by omega), List.getElem?_set_self hi]; exact hk⟩
      · have hki : k ≠ i := by rintro rfl; rw [hk] at hcl; cases hcl
        exact ⟨k, by rw [List.getElem?_set_ne (by omega), List.getElem?_set_ne (by omega)]; exact hk⟩

theorem orphan_call {s s' : FileState} {op : FileOp Byte} {out : FileOut Byte} {fd : Nat} (h : FdOk s) (ho : Orphan s fd)
    (e : s.call op = some (s', out)) : Orphan s' fd := by
  obtain ⟨_, h2, h3, _⟩ := call_descriptors h e
  obtain ⟨⟨f, hf⟩, hno⟩ := ho
  refine ⟨?_, ?_⟩
  · rcases h2 fd f hf with h2 | ⟨i, hi⟩
    · exact ⟨f, h2⟩
    · exact absurd hi (hno i)
  · intro i hi
    rcases h3 i fd hi with h3 | ⟨j, hj⟩
    · rw [hf] at h3; cases h3
    · exact hno j hj

end RK
