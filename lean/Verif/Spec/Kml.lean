import Verif.Spec.Svg
import Verif.Spec.FloatText
import Verif.Spec.OrderTool
/-! # Specification: routes as KML documents -/
namespace Spec

/-- The text of a route in KML: the coordinates (longitude and latitude) of the source, of the target and of the nodes along the path, and the length. -/
def kmlDocument (source target : List Char × List Char) (distance : ℕ) (path : List (List Char × List Char)) : List Char :=
  ("<?xml version=\"1.0\" encoding=\"UTF-8\"?>\n" ++
   "<kml xmlns=\"http://www.opengis.net/kml/2.2\">\n" ++
   "<Document>\n" ++
   "\t<Placemark>\n\t\t<name>Source</name>\n\t\t<Point><coordinates>").toList ++ source.1 ++ ",".toList ++ source.2 ++
  (",0</coordinates></Point>\n\t</Placemark>\n" ++
   "\t<Placemark>\n\t\t<name>Target</name>\n\t\t<Point><coordinates>").toList ++ target.1 ++ ",".toList ++ target.2 ++
  (",0</coordinates></Point>\n\t</Placemark>\n" ++
   "\t<Placemark>\n\t\t<name>Path of length ").toList ++ Nat.toDigits 10 distance ++
  (" meter</name>\n\t\t<LineString>\n\t\t\t<coordinates>\n").toList ++
  (path.flatMap fun p => "\t\t\t\t".toList ++ p.1 ++ ",".toList ++ p.2 ++ ",0\n".toList) ++
  ("\t\t\t</coordinates>\n\t\t</LineString>\n\t</Placemark>\n" ++
   "</Document>\n" ++
   "</kml>\n").toList

/-- The text `l` is a decimal number, and `x` is the only number of type `float` that is nearest to it: whoever reads the text as `float` gets `x`. -/
def IdentifiesFloat (l : List Char) (x : ℝ) : Prop :=
  ∃ t, DenotesDecimal l t ∧ ∀ y, IsBinary 24 (-126) 128 |y| → y ≠ x → |t - x| < |t - y|

/-- The texts `p` are the longitude and the latitude of the node `x`. -/
def PointText (latitude longitude : List ℝ) (x : ℕ) (p : List Char × List Char) : Prop :=
  ∃ a b, longitude[x]? = some a ∧ latitude[x]? = some b ∧ IdentifiesFloat p.1 a ∧ IdentifiesFloat p.2 b

/-- The text is a KML document with a shortest path from `s` to `t`. -/
def RouteText (A : ArcRel) (latitude longitude : List ℝ) (s t : ℕ) (text : List Char) : Prop :=
  ∃ source target distance path arcs nodes, text = kmlDocument source target distance path ∧ ShortestRoute A s t distance arcs nodes ∧
    PointText latitude longitude s source ∧ PointText latitude longitude t target ∧ List.Forall₂ (PointText latitude longitude) nodes path

end Spec
