import Verif.Spec.EdgeFile
import Verif.Model.Converter

/-!
# What command lines mean (specification)

From the help text of the converter, /repo/src/graph_converter.cpp:105-159, and the usual ways to write options.  Only the
names of the settings are taken from the model.
-/
namespace GraphMat

/-- `w` is the number `x` in decimal notation without unnecessary zeros in front. -/
def Spells (x : Int) (w : List Char) : Prop :=
  ∃ ds : List Nat, ds ≠ [] ∧ (∀ d, d ∈ ds → d < 10) ∧ (ds = [0] ∨ ds.head? ≠ some 0) ∧
    ((w = ds.map digitChar ∧ x = (digitsValue ds : Int)) ∨
     (w = '+' :: ds.map digitChar ∧ x = (digitsValue ds : Int)) ∨
     (w = '-' :: ds.map digitChar ∧ x = -(digitsValue ds : Int)))

/-- The name of an option in the help text. -/
def Setting.name : Setting → List Char
  | .uppertriangular => "uppertriangular".toList
  | .bidirectional => "bidirectional".toList
  | .randomizeID => "randomizeID".toList
  | .selfloops _ => "selfloops".toList
  | .duplicatededges _ => "duplicatededges".toList
  | .inputformat _ => "inputformat".toList
  | .outputformat _ => "outputformat".toList
  | .inputheader _ => "inputheader".toList
  | .outputheader _ => "outputheader".toList
  | .inputedgeweights _ => "inputedgeweights".toList
  | .outputedgeweights _ => "outputedgeweights".toList
  | .edgeweighttype _ => "edgeweighttype".toList
  | .r _ => "r".toList
  | .nvertices _ => "nvertices".toList
  | .split _ => "split".toList

/-- The number that belongs to an option. -/
def Setting.number : Setting → Option Int
  | .uppertriangular | .bidirectional | .randomizeID => none
  | .selfloops x | .duplicatededges x | .inputformat x | .outputformat x | .inputheader x | .outputheader x
  | .inputedgeweights x | .outputedgeweights x | .edgeweighttype x | .r x | .nvertices x | .split x => some x

/-- The letter of an option with a number; the three flags have none, and the letter of `split` cannot be used. -/
def Setting.letter : Setting → Option Char
  | .uppertriangular | .bidirectional | .randomizeID | .split _ => none
  | .selfloops _ => some 's'
  | .duplicatededges _ => some 'd'
  | .inputformat _ => some 'i'
  | .outputformat _ => some 'o'
  | .inputheader _ => some 'n'
  | .outputheader _ => some 'u'
  | .inputedgeweights _ => some 'e'
  | .outputedgeweights _ => some 'w'
  | .edgeweighttype _ => some 't'
  | .r _ => some 'r'
  | .nvertices _ => some 'v'

/-- A part of a command line: an option written in one of five ways, with the text of its number, or the name of a file. -/
inductive Item where
  /-- `--name` -/
  | flag (s : Setting)
  /-- `--name number` -/
  | long (s : Setting) (w : List Char)
  /-- `--name=number` -/
  | equals (s : Setting) (w : List Char)
  /-- `-c number` -/
  | short (s : Setting) (c : Char) (w : List Char)
  /-- `-cnumber` -/
  | joined (s : Setting) (c : Char) (w : List Char)
  /-- the name of a file -/
  | file (f : List Char)

/-- `w` is the text of the number of the setting. -/
def Setting.Written (s : Setting) (w : List Char) : Prop := ∃ x, s.number = some x ∧ Spells x w ∧ IsInt32 x

/-- The part is correctly written; names of files do not begin with a dash. -/
def Item.Good : Item → Prop
  | .flag s => s.number = none
  | .long s w => s.Written w
  | .equals s w => s.Written w
  | .short s c w => s.Written w ∧ s.letter = some c
  | .joined s c w => s.Written w ∧ s.letter = some c
  | .file f => f.head? ≠ some '-'

/-- The words of a part. -/
def Item.words : Item → List (List Char)
  | .flag s => [['-', '-'] ++ s.name]
  | .long s w => [['-', '-'] ++ s.name, w]
  | .equals s w => [['-', '-'] ++ s.name ++ ['='] ++ w]
  | .short _ c w => [['-', c], w]
  | .joined _ c w => [['-', c] ++ w]
  | .file f => [f]

/-- The setting of a part. -/
def Item.setting? : Item → Option Setting
  | .flag s | .long s _ | .equals s _ | .short s _ _ | .joined s _ _ => some s
  | .file _ => none

/-- The file named by a part. -/
def Item.file? : Item → Option (List Char)
  | .file f => some f
  | _ => none

/-- The end of a command line: nothing, or `--` and words that are not options even if they look like some. -/
def ending : Option (List (List Char)) → List (List Char)
  | none => []
  | some l => ['-', '-'] :: l

end GraphMat
