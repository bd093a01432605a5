import Verif.Model.Segment
import Verif.Model.CInt

/-!
# What edge list files contain (specification)

Independent of the reading and writing code: which files a rank is to read, the dimensions, and what a well-formed text
file is.
-/
namespace GraphMat

variable {E : Type}

/-- Elements number `r`, `r + n`, `r + 2 n`, ... of a list: the share of rank `r` of `n` in a numbered sequence of files. -/
def everyNth {α : Type} (n r : Nat) (l : List α) : List α :=
  (List.range l.length).filterMap (fun k => l[r + k * n]?)

/-- The largest of some numbers and zero. -/
def topOf (l : List Int) : Int := l.foldr max 0

/-- A number that fits in an `int`. -/
def IsInt32 (x : Int) : Prop := -2147483648 ≤ x ∧ x ≤ 2147483647

/-- What a reader that ignores weights is to see of an edge. -/
def seenEdge (weights : Bool) (one : E) (e : Edge E) : Edge E := if weights then e else ⟨e.src, e.dst, one⟩

/-- The edge with its weight changed by `bk`. -/
def backEdge (bk : E → E) (e : Edge E) : Edge E := ⟨e.src, e.dst, bk e.val⟩

/-! ### Text files -/

/-- White space of the C locale: space, newline, tab, carriage return, vertical tab, form feed. -/
def whiteChars : List Char := [' ', '\n', '\t', '\r', Char.ofNat 11, Char.ofNat 12]

/-- Only white space (possibly nothing). -/
def Blanks (l : List Char) : Prop := ∀ c, c ∈ l → c ∈ whiteChars

/-- The character of a decimal digit. -/
def digitChar (d : Nat) : Char := Char.ofNat (48 + d)

/-- The number written with some decimal digits, most significant first. -/
def digitsValue (ds : List Nat) : Nat := ds.foldl (fun acc d => 10 * acc + d) 0

/-- `l` is decimal notation of `x`, with an optional sign (and possibly leading zeros). -/
def IsNumeral (x : Int) (l : List Char) : Prop :=
  ∃ ds : List Nat, ds ≠ [] ∧ (∀ d, d ∈ ds → d < 10) ∧
    ((l = ds.map digitChar ∧ x = (digitsValue ds : Int)) ∨
     (l = '+' :: ds.map digitChar ∧ x = (digitsValue ds : Int)) ∨
     (l = '-' :: ds.map digitChar ∧ x = -(digitsValue ds : Int)))

/-- One data line of a text file: an edge, how its parts are written, and the white space around. -/
structure TextLine (E : Type) where
  /-- the edge on the line -/
  edge : Edge E
  /-- text of the source id -/
  src : List Char
  /-- white space between the ids -/
  sep : List Char
  /-- text of the target id -/
  dst : List Char
  /-- white space before the weight -/
  sep' : List Char
  /-- text of the weight -/
  val : List Char
  /-- what follows up to the next line, normally one newline; empty if the file ends right after the last item -/
  term : List Char

/-- The characters of a line. -/
def TextLine.chars (weights : Bool) (t : TextLine E) : List Char :=
  t.src ++ (t.sep ++ (t.dst ++ ((if weights then t.sep' ++ t.val else []) ++ t.term)))

/-- A well-formed data line; `wt v l` says that the text `l` denotes the weight `v`. -/
structure TextLine.Good (wt : E → List Char → Prop) (weights : Bool) (one : E) (t : TextLine E) : Prop where
  src : IsNumeral t.edge.src t.src ∧ IsInt32 t.edge.src
  dst : IsNumeral t.edge.dst t.dst ∧ IsInt32 t.edge.dst
  sep : t.sep ≠ [] ∧ Blanks t.sep
  sep' : weights = true → t.sep' ≠ [] ∧ Blanks t.sep'
  val : weights = true → wt t.edge.val t.val
  one : weights = false → t.edge.val = one
  term : Blanks t.term

/-- The first line of a text file with header: dimensions and number of edges. -/
structure TextHead where
  /-- `m` -/
  m : Int
  /-- `n` -/
  n : Int
  /-- text of `m` -/
  mt : List Char
  /-- white space -/
  sep : List Char
  /-- text of `n` -/
  nt : List Char
  /-- white space -/
  sep' : List Char
  /-- text of the number of edges -/
  kt : List Char
  /-- end of the line -/
  term : List Char

/-- The characters of the header line. -/
def TextHead.chars (h : TextHead) : List Char := h.mt ++ (h.sep ++ (h.nt ++ (h.sep' ++ (h.kt ++ h.term))))

/-- A well-formed header line announcing `k` edges. -/
structure TextHead.Good (h : TextHead) (k : Nat) : Prop where
  m : IsNumeral h.m h.mt ∧ IsInt32 h.m
  n : IsNumeral h.n h.nt ∧ IsInt32 h.n
  k : IsNumeral (k : Int) h.kt ∧ IsInt32 (k : Int)
  sep : h.sep ≠ [] ∧ Blanks h.sep
  sep' : h.sep' ≠ [] ∧ Blanks h.sep'
  term : h.term ≠ [] ∧ Blanks h.term

/-- A text file: a header line (written only if the file is to have one) and data lines. -/
structure TextFile (E : Type) where
  /-- the header line -/
  head : TextHead
  /-- the data lines -/
  lines : List (TextLine E)

/-- The characters of a file. -/
def TextFile.chars (header weights : Bool) (t : TextFile E) : List Char :=
  (if header then t.head.chars else []) ++ t.lines.flatMap (TextLine.chars weights)

/-- The edges of a file. -/
def TextFile.edges (t : TextFile E) : List (Edge E) := t.lines.map TextLine.edge

/-- A well-formed text file: good lines, each of which is terminated except possibly the last one. -/
structure TextFile.Good (wt : E → List Char → Prop) (header weights : Bool) (one : E) (t : TextFile E) : Prop where
  head : header = true → t.head.Good t.lines.length
  lines : ∀ l, l ∈ t.lines → l.Good wt weights one
  term : ∀ l, l ∈ t.lines.dropLast → l.term ≠ []

/-- The last line is terminated as well. -/
def TextFile.Ended (t : TextFile E) : Prop := ∀ l, l ∈ t.lines → l.term ≠ []

end GraphMat
