import Verif.Model.BitVector
/-! # Model of filter.h -/
namespace RK

/-- filter.h:13-25, 28-40, the common loop of the in-place filters; `want` is the value of the filter
bit of the kept elements. The moved-from elements are overwritten or erased, so a move is a copy. -/
def inplaceFilter (want : Bool) (filter : BitVector) (vec : List α) : Option (List α) := do
  check (filter.size = vec.length)
  let (vec, out) ← forRange 0 vec.length (vec, 0) fun s i => do
    let b ← filter.isSet i
    if b = want then do
      let x ← rd s.1 i
      let v ← wr s.1 s.2 x
      some (v, s.2 + 1)
    else some s
  some (vec.take out)

/-- filter.h:13-25 `inplace_keep_element_of_vector_if` -/
def inplaceKeep (filter : BitVector) (vec : List α) : Option (List α) := inplaceFilter true filter vec

/-- filter.h:28-40 `inplace_remove_element_from_vector_if` -/
def inplaceRemove (filter : BitVector) (vec : List α) : Option (List α) := inplaceFilter false filter vec

/-- filter.h:43-46 `keep_element_of_vector_if`, takes the vector by value. -/
def keepElementIf (filter : BitVector) (vec : List α) : Option (List α) := inplaceKeep filter vec

/-- filter.h:49-52 `remove_element_from_vector_if`, takes the vector by value. -/
def removeElementIf (filter : BitVector) (vec : List α) : Option (List α) := inplaceRemove filter vec

end RK
