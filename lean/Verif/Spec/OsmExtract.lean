import Verif.Spec.OsmSimple
import Verif.Spec.OsmFile
/-! # Specification: names of roads -/
namespace Spec

/-- The name of a road: the tags `name` and `ref`, as far as they exist, with a semicolon in between. -/
def roadName (tags : List (Str × Str)) : Str :=
  List.intercalate (text ";") ([lookup tags (text "name"), lookup tags (text "ref")].filterMap id)

end Spec
