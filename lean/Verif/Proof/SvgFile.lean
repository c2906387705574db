import Verif.Proof.SvgText
/-! # The program that draws a graph: proofs -/
namespace RK
open Spec Ieee

theorem firstMinPos_key {α β : Type} {lt : α → α → Bool} {lt' : β → β → Bool} {f : α → β} {v : List α} (h : ∀ a ∈ v, ∀ b ∈ v, lt a b = lt' (f a) (f b)) :
    firstMinPos lt v = firstMinPos lt' (v.map f) := by
  have hrd : ∀ i, rd (v.map f) i = (rd v i).map f := fun i => by unfold rd; rw [List.getElem?_map]
  unfold firstMinPos
  rw [List.length_map]
  have hb : (fun (pos i : Nat) => (rd v i).bind fun a => (rd v pos).bind fun b => some (if lt a b then i else pos)) =
      fun (pos i : Nat) => (rd (v.map f) i).bind fun a => (rd (v.map f) pos).bind fun b => some (if lt' a b then i else pos) := by
    funext pos i
    rw [hrd, hrd]
    cases h1 : rd v i with
    | none => rfl
    | some a =>
      cases h2 : rd v pos with
      | none => rfl
      | some b =>
        simp only [Option.bind_some, Option.map_some]
        rw [h a (List.mem_of_getElem? h1) b (List.mem_of_getElem? h2)]
  simp only [Option.bind_eq_bind] at hb ⊢
  rw [hb]
  simp

theorem firstMaxPos_key {α β : Type} {lt : α → α → Bool} {lt' : β → β → Bool} {f : α → β} {v : List α} (h : ∀ a ∈ v, ∀ b ∈ v, lt a b = lt' (f a) (f b)) :
    firstMaxPos lt v = firstMaxPos lt' (v.map f) := by
  have hrd : ∀ i, rd (v.map f) i = (rd v i).map f := fun i => by unfold rd; rw [List.getElem?_map]
  unfold firstMaxPos
  rw [List.length_map]
  have hb : (fun (pos i : Nat) => (rd v i).bind fun a => (rd v pos).bind fun b => some (if lt b a then i else pos)) =
      fun (pos i : Nat) => (rd (v.map f) i).bind fun a => (rd (v.map f) pos).bind fun b => some (if lt' b a then i else pos) := by
    funext pos i
    rw [hrd, hrd]
    cases h1 : rd v i with
    | none => rfl
    | some a =>
      cases h2 : rd v pos with
      | none => rfl
      | some b =>
        simp only [Option.bind_some, Option.map_some]
        rw [h b (List.mem_of_getElem? h2) a (List.mem_of_getElem? h1)]
  simp only [Option.bind_eq_bind] at hb ⊢
  rw [hb]
  simp

/-- A finite number. -/
def FloatValue.IsFinite : FloatValue → Prop
  | .finite _ _ => True
  | _ => False

theorem svgScale_eq {v : List FloatValue} (hv : v ≠ []) (hf : ∀ x ∈ v, x.IsFinite) :
    ∃ lo hi, lo ∈ v ∧ hi ∈ v ∧ (∀ y ∈ v, lo.value ≤ y.value ∧ y.value ≤ hi.value) ∧
      svgScale v = some (v.map fun x => float32.div (float32.mul (float32.sub x lo) float300) (float32.sub hi lo)) := by
  have hk : ∀ a ∈ v, ∀ b ∈ v, FloatValue.lt a b = decide (a.value < b.value) := by
    intro a ha b hb
    have h1 := hf a ha
    have h2 := hf b hb
    cases a with
    | finite _ _ =>
      cases b with
      | finite _ _ =>
        unfold FloatValue.lt
        congr
      | infinity _ => cases h2
      | nan _ => cases h2
    | infinity _ => cases h1
    | nan _ => cases h1
  have hne : v.map FloatValue.value ≠ [] := by simpa using hv
  obtain ⟨p, lo, e1, h1, h2, _⟩ := firstMinPos_eq hne
  obtain ⟨q, hi, e2, h3, h4, _⟩ := firstMaxPos_eq hne
  rw [List.getElem?_map, Option.map_eq_some_iff] at h1 h3
  obtain ⟨l, hl, rfl⟩ := h1
  obtain ⟨h, hh, rfl⟩ := h3
  refine ⟨l, h, List.mem_of_getElem? hl, List.mem_of_getElem? hh, ?_, ?_⟩
  · intro y hy
    obtain ⟨j, hj⟩ := List.mem_iff_getElem?.1 hy
    exact ⟨h2 j _ (by rw [List.getElem?_map, hj]; rfl), h4 j _ (by rw [List.getElem?_map, hj]; rfl)⟩
  · unfold svgScale minElementOf maxElement
    have hl' : rd v p = some l := hl
    have hh' : rd v q = some h := hh
    rw [firstMinPos_key (lt' := fun a b => decide (a < b)) hk, firstMaxPos_key (lt' := fun a b => decide (a < b)) hk, e1, e2]
    simp only [Option.bind_eq_bind, Option.bind_some, hl', hh']

theorem toolSvgText_eq {fo : List Nat} (hne : fo ≠ []) (hd : List Nat) {lat lon slat slon : List FloatValue} (h1 : svgScale lat = some slat)
    (h2 : svgScale lon = some slon) :
    toolSvgText fo hd lat lon = ((visits fo (fo.length - 1)).mapM fun p => (rd hd p.2).bind fun y => (rd slon p.1).bind fun x1 => (rd slat p.1).bind fun y1 =>
      (rd slon y).bind fun x2 => (rd slat y).map fun y2 => svgLine x1 y1 x2 y2).map svgDocument := by
  unfold toolSvgText
  simp only [h1, h2, Option.bind_eq_bind, Option.bind_some]
  rw [forAllArcs_eq hne, foldlM_append (fun p => (rd hd p.2).bind fun y => (rd slon p.1).bind fun x1 => (rd slat p.1).bind fun y1 =>
      (rd slon y).bind fun x2 => (rd slat y).map fun y2 => svgLine x1 y1 x2 y2) _ ?_]
  · cases (visits fo (fo.length - 1)).mapM fun p => (rd hd p.2).bind fun y => (rd slon p.1).bind fun x1 => (rd slat p.1).bind fun y1 =>
      (rd slon y).bind fun x2 => (rd slat y).map fun y2 => svgLine x1 y1 x2 y2 with
    | none => rfl
    | some ps => rfl
  · intro s p
    cases rd hd p.2 with
    | none => rfl
    | some y =>
      cases rd slon p.1 with
      | none => rfl
      | some x1 =>
        cases rd slat p.1 with
        | none => rfl
        | some y1 =>
          simp only [Option.bind_some]
          cases rd slon y with
          | none => rfl
          | some x2 =>
            simp only [Option.bind_some]
            cases rd slat y with
            | none => rfl
            | some y2 => rfl

theorem svgLine_eq (x1 y1 x2 y2 : FloatValue) :
    svgLine x1 y1 x2 y2 = svgLineText (printDefault x1) (printDefault (float32.sub float300 y1)) (printDefault x2) (printDefault (float32.sub float300 y2)) := by
  unfold svgLine svgLineText
  have e1 : "<line ".toList ++ "x1=\"".toList = "<line x1=\"".toList := by decide
  have e2 : "\" ".toList ++ "x2=\"".toList = "\" x2=\"".toList := by decide
  rw [e1, ← e2]
  simp only [List.append_assoc]

/-- The program with the scaled coordinates. -/
theorem toolSvgText_ok {n : Nat} {fo hd : List Nat} {lat lon slat slon : List FloatValue} (h : IsCSR n fo hd)
    (h1 : svgScale lat = some slat) (h2 : svgScale lon = some slon) (hl1 : n ≤ slat.length) (hl2 : n ≤ slon.length) :
    ∃ lines, toolSvgText fo hd lat lon = some (svgDocument lines) ∧ lines.length = hd.length ∧ ∀ x y i, OutArc fo x i → hd[i]? = some y →
      ∃ x1 y1 x2 y2, rd slon x = some x1 ∧ rd slat x = some y1 ∧ rd slon y = some x2 ∧ rd slat y = some y2 ∧
        lines[i]? = some (svgLineText (printDefault x1) (printDefault (float32.sub float300 y1)) (printDefault x2) (printDefault (float32.sub float300 y2))) := by
  have hl := h.length
  have hne : fo ≠ [] := fun e => by rw [e] at hl; simp at hl
  have hv := visits_csr h
  have hvl : (visits fo (fo.length - 1)).length = hd.length := by
    have := congrArg List.length hv
    rwa [List.length_map, List.length_range] at this
  let z : FloatValue := .nan true
  let k : Nat × Nat → Text := fun p => svgLine (slon.getD p.1 z) (slat.getD p.1 z) (slon.getD (hd.getD p.2 0) z) (slat.getD (hd.getD p.2 0) z)
  have hget : ∀ {v : List FloatValue} {x : Nat}, x < v.length → rd v x = some (v.getD x z) := by
    intro v x hx
    unfold rd
    rw [List.getD_eq_getElem?_getD, List.getElem?_eq_getElem hx]
    rfl
  have hxn : ∀ x i, OutArc fo x i → x < n := by
    rintro x i ⟨b, e, _, he, _⟩
    have := (List.getElem?_eq_some_iff.1 he).1
    omega
  have hyd : ∀ i y, hd[i]? = some y → hd.getD i 0 = y := by
    intro i y hy
    rw [List.getD_eq_getElem?_getD, hy]
    rfl
  refine ⟨(visits fo (fo.length - 1)).map k, ?_, by rw [List.length_map, hvl], ?_⟩
  · rw [toolSvgText_eq hne hd h1 h2, mapM_some_map _ k _ fun p hp => ?_]
    · rfl
    have hx := hxn p.1 p.2 (mem_visits.1 hp)
    have hi : p.2 ∈ (visits fo (fo.length - 1)).map Prod.snd := List.mem_map.2 ⟨p, hp, rfl⟩
    rw [hv, List.mem_range] at hi
    obtain ⟨y, hy⟩ := rd_isSome hi
    have hyn := h.head_lt p.2 y hy
    simp only [k, hyd p.2 y hy]
    rw [hy, Option.bind_some, hget (by omega : p.1 < slon.length), Option.bind_some, hget (by omega : p.1 < slat.length), Option.bind_some,
      hget (by omega : y < slon.length), Option.bind_some, hget (by omega : y < slat.length), Option.map_some]
  · intro x y i hx hy
    have hxl := hxn x i hx
    have hyn := h.head_lt i y hy
    refine ⟨_, _, _, _, hget (by omega : x < slon.length), hget (by omega : x < slat.length), hget (by omega : y < slon.length),
      hget (by omega : y < slat.length), ?_⟩
    obtain ⟨p, hp⟩ : ∃ p, (visits fo (fo.length - 1))[i]? = some p :=
      ⟨_, List.getElem?_eq_getElem (by have := (List.getElem?_eq_some_iff.1 hy).1; omega)⟩
    have hpi : p.2 = i := by
      have : ((visits fo (fo.length - 1)).map Prod.snd)[i]? = some p.2 := by rw [List.getElem?_map, hp]; rfl
      rw [hv] at this
      obtain ⟨_, h2⟩ := List.getElem?_eq_some_iff.1 this
      rw [List.getElem_range] at h2
      exact h2.symm
    have hpx : p.1 = x := outArc_unique h (mem_visits.1 (by rw [← hpi]; exact List.mem_of_getElem? hp)) hx
    rw [List.getElem?_map, hp]
    simp only [Option.map_some, k, hpi, hpx, hyd i y hy]
    rw [svgLine_eq]

end RK
