/-
How the indented print of a document is laid out: the lines of a value.
-/
import Verif.Model.Json

namespace Keride.Spec

/-- The lines, two spaces further to the right. -/
def shifted (l : List Str) : List Str := l.map fun t => ' ' :: ' ' :: t

/-- The lines with a text before the first. -/
def startedWith (s : Str) : List Str → List Str
  | [] => []
  | t :: l => (s ++ t) :: l

/-- The lines with a comma after the last. -/
def endedWithComma : List Str → List Str
  | [] => []
  | [t] => [t ++ [',']]
  | t :: l => t :: endedWithComma l

/-- The lines of one block after another, with commas between the blocks. -/
def blocks : List (List Str) → List Str
  | [] => []
  | [b] => b
  | b :: l => endedWithComma b ++ blocks l

mutual

/-- The lines of a value: what is not an array or object, or is an empty one, is on one line as in its JSON without white space. Otherwise the
brackets have lines of their own, with the elements or entries between them. -/
def linesOf : Value → List Str
  | .arr [] => [str% "[]"]
  | .arr (v :: l) => (str% "[") :: (shifted (blocks (linesOf v :: linesOfItems l)) ++ [str% "]"])
  | .obj [] => [str% "{}"]
  | .obj ((k, v) :: l) => (str% "{") :: (shifted (blocks (startedWith (jsonStr k ++ str% ": ") (linesOf v) :: linesOfEntries l)) ++ [str% "}"])
  | v => [v.toJson]

/-- The lines of every element. -/
def linesOfItems : List Value → List (List Str)
  | [] => []
  | v :: l => linesOf v :: linesOfItems l

/-- The lines of every entry. -/
def linesOfEntries : List (Str × Value) → List (List Str)
  | [] => []
  | (k, v) :: l => startedWith (jsonStr k ++ str% ": ") (linesOf v) :: linesOfEntries l

end

end Keride.Spec
