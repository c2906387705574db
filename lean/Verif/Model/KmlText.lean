import Verif.Model.SvgText
import Verif.Model.ShowPath
/-!
# Model of `/repo/src/show_path.cpp`: the text

`Model/ShowPath.lean` has the program without the text; here are the characters that it prints.
-/
namespace RK

/-- `cout << std::setprecision(10) << x` for a `float`. -/
noncomputable def printTen : FloatValue → Text
  | .finite neg m => printSign neg ++ printMag 10 m
  | .infinity neg => printSign neg ++ ['i', 'n', 'f']
  | .nan neg => printSign neg ++ ['n', 'a', 'n']

/-- show_path.cpp:63: a line of the path. -/
noncomputable def kmlPoint (p : FloatValue × FloatValue) : Text :=
  "\t\t\t\t".toList ++ printTen p.1 ++ [','] ++ printTen p.2 ++ ",0\n".toList

/-- show_path.cpp:46-69: the text of a document. -/
noncomputable def kmlText (doc : PathDocument FloatValue) : Text :=
  "<?xml version=\"1.0\" encoding=\"UTF-8\"?>\n".toList ++
  "<kml xmlns=\"http://www.opengis.net/kml/2.2\">\n".toList ++
  "<Document>\n".toList ++
  "\t<Placemark>\n".toList ++
  "\t\t<name>Source</name>\n".toList ++
  "\t\t<Point><coordinates>".toList ++ printTen doc.source.1 ++ [','] ++ printTen doc.source.2 ++ ",0</coordinates></Point>\n".toList ++
  "\t</Placemark>\n".toList ++
  "\t<Placemark>\n".toList ++
  "\t\t<name>Target</name>\n".toList ++
  "\t\t<Point><coordinates>".toList ++ printTen doc.target.1 ++ [','] ++ printTen doc.target.2 ++ ",0</coordinates></Point>\n".toList ++
  "\t</Placemark>\n".toList ++
  "\t<Placemark>\n".toList ++
  "\t\t<name>Path of length ".toList ++ printNat doc.distance ++ " meter</name>\n".toList ++
  "\t\t<LineString>\n".toList ++
  "\t\t\t<coordinates>\n".toList ++
  doc.line.flatMap kmlPoint ++
  "\t\t\t</coordinates>\n".toList ++
  "\t\t</LineString>\n".toList ++
  "\t</Placemark>\n".toList ++
  "</Document>\n".toList ++
  "</kml>".toList ++ ['\n']

/-- show_path.cpp:31-74: what is printed on the standard output. (Simplification: a document is printed at once; what of it would be printed before undefined
behaviour is left out.) -/
noncomputable def toolShowPathText (hardened : Bool) (chFile : Option (List Byte)) (latitude longitude : List FloatValue) (text : Text) : Res (Text × PathEnding) := do
  let r ← toolShowPath hardened chFile latitude longitude text
  .ok (r.1.flatMap kmlText, r.2)

end RK
