import Verif.Spec.Dijkstra
import Verif.Proof.Components
/-! Distances in a graph with `n` nodes and weights up to `W` are at most `(n - 1) * W`. -/
namespace RK
open Spec

/-- A walk with its nodes. -/
inductive NWalk (A : ArcRel) : Nat → List Nat → List Nat → Nat → Nat → Prop
  | nil (s : Nat) : NWalk A s [] [s] s 0
  | cons {a s m t w l : Nat} {p ns : List Nat} : A a s m w → NWalk A m p ns t l → NWalk A s (a :: p) (s :: ns) t (w + l)

variable {A : ArcRel}

theorem NWalk.walk {s t l : Nat} {p ns : List Nat} (h : NWalk A s p ns t l) : Walk A s p t l := by
  induction h with
  | nil => exact .nil _
  | cons ha _ ih => exact .cons ha ih

theorem NWalk.length {s t l : Nat} {p ns : List Nat} (h : NWalk A s p ns t l) : ns.length = p.length + 1 := by
  induction h with
  | nil => rfl
  | cons ha _ ih => simp [ih]

theorem NWalk.suffix {s t l : Nat} {p ns : List Nat} (h : NWalk A s p ns t l) : ∀ x ∈ ns, ∃ p' ns' l', NWalk A x p' ns' t l' ∧ ns' <:+ ns := by
  induction h with
  | nil s =>
    intro x hx
    rw [List.mem_singleton] at hx
    subst hx
    exact ⟨_, _, _, .nil _, List.suffix_refl _⟩
  | @cons a s m t w l p ns ha hw ih =>
    intro x hx
    rcases List.mem_cons.1 hx with rfl | hx
    · exact ⟨_, _, _, .cons ha hw, List.suffix_refl _⟩
    · obtain ⟨p', ns', l', h1, h2⟩ := ih x hx
      exact ⟨p', ns', l', h1, h2.trans (List.suffix_cons _ _)⟩

theorem exists_simple {s t l : Nat} {p : List Nat} (h : Walk A s p t l) : ∃ p' ns l', NWalk A s p' ns t l' ∧ ns.Nodup := by
  induction h with
  | nil s => exact ⟨_, _, _, .nil s, by simp⟩
  | @cons a s m t w l p ha hw ih =>
    obtain ⟨p', ns, l', h1, h2⟩ := ih
    by_cases hs : s ∈ ns
    · obtain ⟨p2, ns2, l2, g1, g2⟩ := h1.suffix s hs
      exact ⟨p2, ns2, l2, g1, h2.sublist g2.sublist⟩
    · exact ⟨_, _, _, .cons ha h1, List.nodup_cons.2 ⟨hs, h2⟩⟩

theorem NWalk.lt {n s t l : Nat} {p ns : List Nat} (hA : ∀ a x y w, A a x y w → y < n) (hs : s < n) (h : NWalk A s p ns t l) : ∀ x ∈ ns, x < n := by
  induction h with
  | nil s =>
    intro x hx
    rw [List.mem_singleton] at hx
    omega
  | cons ha hw ih =>
    intro x hx
    rcases List.mem_cons.1 hx with rfl | hx
    · exact hs
    · exact ih (hA _ _ _ _ ha) x hx

theorem walk_length_le {W s t l : Nat} {p : List Nat} (hA : ∀ a x y w, A a x y w → w ≤ W) (h : Walk A s p t l) : l ≤ p.length * W := by
  induction h with
  | nil => simp
  | @cons a s m t w l p ha hw ih =>
    have := hA _ _ _ _ ha
    rw [List.length_cons, Nat.add_mul, Nat.one_mul]
    omega

theorem isDist_le {n W s t d : Nat} (hA : ∀ a x y w, A a x y w → y < n) (hW : ∀ a x y w, A a x y w → w ≤ W) (hs : s < n)
    (h : IsDist A s t d) : d + W ≤ n * W := by
  obtain ⟨p, hp⟩ := h.1
  obtain ⟨p', ns, l', h1, h2⟩ := exists_simple hp
  have h3 := nodup_bounded_length h2 (h1.lt hA hs)
  have h4 := walk_length_le hW h1.walk
  have h5 := h.2 _ _ h1.walk
  have h6 := h1.length
  have : (p'.length + 1) * W ≤ n * W := Nat.mul_le_mul_right _ (by omega)
  rw [Nat.add_mul, Nat.one_mul] at this
  omega

/-- Sums of a distance and an arc fit into 32 bits if the weights are small enough. -/
theorem sums_fit {n W : Nat} {fo hd wt : List Nat} (csr : IsCSR n fo hd) (hW : ∀ w ∈ wt, w < closed → w ≤ W) (hfit : n * W < 2 ^ 32) {s : Nat} (hs : s < n)
    {x k a y w : Nat} (hk : IsDist (openArcs fo hd wt) s x k) (ha : openArcs fo hd wt a x y w) : k + w < 2 ^ 32 := by
  have h1 := isDist_le (A := openArcs fo hd wt) (n := n) (W := W) (fun a x y w h => csr.head_lt a y h.1.2.1)
    (fun a x y w h => hW w (List.mem_of_getElem? h.1.2.2) h.2) hs hk
  have h2 := hW w (List.mem_of_getElem? ha.1.2.2) ha.2
  omega

end RK
