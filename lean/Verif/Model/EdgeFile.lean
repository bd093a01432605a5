import Verif.Model.EdgeList
import Verif.Model.Mem

/-!
# Edge list files

Models the reading and writing of edge list files, /repo/include/GMDP/utils/edgelist.h:89-334.

A file is the list of its bytes (binary) or characters (text).  A `FILE *` opened for reading is the list of what has
not been consumed yet together with the end-of-file indicator of the C library, which is set by an operation that
*tries* to read beyond the last byte, not by one that merely consumes it.
-/
namespace GraphMat

variable {E C : Type}

/-- A `FILE *` opened for reading (/repo/include/GMDP/utils/edgelist.h:254-260): the unread rest and the end-of-file
indicator that `feof` returns. -/
structure FileSt (C : Type) where
  /-- bytes or characters not consumed yet -/
  rest : List C
  /-- `feof(fp)` -/
  eof : Bool

/-- `fopen(name, "rb")` / `fopen(name, "r")` of an existing file with contents `c`
(/repo/include/GMDP/utils/edgelist.h:255-259, 301-305). -/
def FileSt.openRead (c : List C) : FileSt C := ⟨c, false⟩

/-- What one call of `readLine` has done (/repo/include/GMDP/utils/edgelist.h:89-133): the values stored through the
three pointers, if any, and the result. -/
structure LineOut (E : Type) where
  /-- value stored through `src` -/
  src : Option Int
  /-- value stored through `dst` -/
  dst : Option Int
  /-- value stored through `val` -/
  val : Option E
  /-- the returned `bool` -/
  ok : Bool

/-! ### Binary files -/

/-- How the bytes of a `T` are stored in memory and hence in a binary file: `fwrite(&val, sizeof(T), 1, ofile)` and
`fread(val, sizeof(T), 1, ifile)`, /repo/include/GMDP/utils/edgelist.h:101, 185.  `dec` is the value that a memory cell of
type `T` has after the bytes were copied into it. -/
structure BinType (E : Type) where
  /-- `sizeof(T)` -/
  size : Nat
  /-- the bytes of a value -/
  enc : E → List Nat
  /-- the value of some bytes -/
  dec : List Nat → E
  /-- `(T)(1)`, /repo/include/GMDP/utils/edgelist.h:104, 127 -/
  one : E

/-- The four bytes of an `int` in memory (`fwrite(&src, sizeof(int), 1, ofile)`,
/repo/include/GMDP/utils/edgelist.h:181-183): little-endian two's complement, as on all targets of /repo/Makefile:13-42. -/
def encInt (x : Int) : List Nat :=
  let u := (x % 4294967296).toNat
  [u % 256, u / 256 % 256, u / 65536 % 256, u / 16777216 % 256]

/-- The value of an `int` whose bytes in memory are given (`fread(src, sizeof(int), 1, ifile)`,
/repo/include/GMDP/utils/edgelist.h:93-97). -/
def decInt (l : List Nat) : Int :=
  let u := l.getD 0 0 + 256 * l.getD 1 0 + 65536 * l.getD 2 0 + 16777216 * l.getD 3 0
  if u < 2147483648 then (u : Int) else (u : Int) - 4294967296

/-- `fread(p, n, 1, fp)` (/repo/include/GMDP/utils/edgelist.h:93, 96, 101).  Outer `none`: the file ends inside the
item, which leaves an indeterminate value in `*p` (not modelled further).  Inner `none`: nothing was stored because the
file is at its end; only then the end-of-file indicator is set. -/
def FileSt.fread (n : Nat) (f : FileSt Nat) : Option (Option (List Nat) × FileSt Nat) :=
  if n ≤ f.rest.length then some (some (f.rest.take n), { f with rest := f.rest.drop n })
  else if f.rest.length = 0 then some (none, { f with eof := true })
  else none

/-- `readLine` with `binaryformat == true`, the third field: /repo/include/GMDP/utils/edgelist.h:100-106. -/
def readLineBinVal (bt : BinType E) (weights : Bool) (s d : Int) (f : FileSt Nat) :
    Option (LineOut E × FileSt Nat) :=
  if weights then do
    let r ← f.fread bt.size
    match r.1 with
    | none => some (⟨some s, some d, none, false⟩, r.2)
    | some b =>
      if r.2.eof then some (⟨some s, some d, some (bt.dec b), false⟩, r.2)
      else some (⟨some s, some d, some (bt.dec b), true⟩, r.2)
  else some (⟨some s, some d, some bt.one, true⟩, f)

/-- `readLine` with `binaryformat == true`, the second field: /repo/include/GMDP/utils/edgelist.h:96-98. -/
def readLineBinDst (bt : BinType E) (weights : Bool) (s : Int) (f : FileSt Nat) : Option (LineOut E × FileSt Nat) := do
  let r ← f.fread 4
  match r.1 with
  | none => some (⟨some s, none, none, false⟩, r.2)
  | some b =>
    if r.2.eof then some (⟨some s, some (decInt b), none, false⟩, r.2)
    else readLineBinVal bt weights s (decInt b) r.2

/-- `readLine` with `binaryformat == true`, /repo/include/GMDP/utils/edgelist.h:92-106. -/
def readLineBin (bt : BinType E) (weights : Bool) (f : FileSt Nat) : Option (LineOut E × FileSt Nat) := do
  let r ← f.fread 4
  match r.1 with
  | none => some (⟨none, none, none, false⟩, r.2)
  | some b =>
    if r.2.eof then some (⟨some (decInt b), none, none, false⟩, r.2)
    else readLineBinDst bt weights (decInt b) r.2

/-- `get_maxid_and_nnz` with `header` and `binaryformat`, /repo/include/GMDP/utils/edgelist.h:139-144: three `int`s, all of
which must be there (assertion, line 141). -/
def readHeaderBin (f : FileSt Nat) : Option ((Int × Int × Int) × FileSt Nat) :=
  if 12 ≤ f.rest.length then
    some ((decInt (f.rest.take 4), decInt ((f.rest.drop 4).take 4), decInt ((f.rest.drop 8).take 4)),
      { f with rest := f.rest.drop 12 })
  else none

/-- `writeLine` with `binaryformat == true`, /repo/include/GMDP/utils/edgelist.h:180-188. -/
def writeLineBin (bt : BinType E) (weights : Bool) (e : Edge E) : List Nat :=
  encInt e.src ++ encInt e.dst ++ (if weights then bt.enc e.val else [])

/-- `write_edgelist` with `binaryformat == true`, /repo/include/GMDP/utils/edgelist.h:208-240: the contents of the file
that one rank writes. -/
def writeBin (bt : BinType E) (header weights : Bool) (el : EdgeList E) : Option (List Nat) := do
  let hd := if header then encInt el.m ++ encInt el.n ++ encInt (el.nnz : Int) else []
  forLoop 0 el.nnz hd (fun i out => do
    let e ← el.edges.read i
    some (out ++ writeLineBin bt weights e))

/-! ### Text files -/

/-- `isspace` in the C locale, which the white space of a `fscanf` format and the conversions skip
(/repo/include/GMDP/utils/edgelist.h:110-125). -/
def isSpace (c : Char) : Bool :=
  c == ' ' || c == '\n' || c == '\t' || c == '\r' || c == Char.ofNat 11 || c == Char.ofNat 12

/-- A decimal digit and its value (the `%d` conversion, /repo/include/GMDP/utils/edgelist.h:110-125). -/
def digitVal (c : Char) : Option Nat :=
  if '0' ≤ c ∧ c ≤ '9' then some (c.toNat - 48) else none

/-- The longest run of digits of the `%d` conversion (/repo/include/GMDP/utils/edgelist.h:110-125): its value (added to
the digits read so far), the number of digits, the unread rest. -/
def scanDigits : List Char → Nat → Nat → Nat × Nat × List Char
  | [], acc, k => (acc, k, [])
  | c :: cs, acc, k =>
    match digitVal c with
    | some v => scanDigits cs (10 * acc + v) (k + 1)
    | none => (acc, k, c :: cs)

/-- The digits of a `%d` conversion; at least one is needed (/repo/include/GMDP/utils/edgelist.h:110-125). -/
def scanNat (l : List Char) : Option (Nat × List Char) :=
  let r := scanDigits l 0 0
  if r.2.1 = 0 then none else some (r.1, r.2.2)

/-- The `%d` conversion after white space was skipped (/repo/include/GMDP/utils/edgelist.h:110-125): an optional sign
and digits.  `none` is a matching failure. -/
def scanInt (l : List Char) : Option (Int × List Char) :=
  match l with
  | '-' :: cs => (scanNat cs).map (fun r => (-(r.1 : Int), r.2))
  | '+' :: cs => (scanNat cs).map (fun r => ((r.1 : Int), r.2))
  | cs => (scanNat cs).map (fun r => ((r.1 : Int), r.2))

/-- One conversion of a `fscanf` format (/repo/include/GMDP/utils/edgelist.h:110-125): skip white space, convert with
`scan`, and look at the next character to see where the item ends.  When there is none, the end-of-file indicator is
set although the conversion has succeeded.  (The unread rest after a failed conversion is not used by the caller; it is
left as it was after the white space.) -/
def FileSt.conv (scan : List Char → Option (E × List Char)) (f : FileSt Char) : Option E × FileSt Char :=
  let l := f.rest.dropWhile isSpace
  match scan l with
  | some r => (some r.1, ⟨r.2, f.eof || r.2.isEmpty⟩)
  | none => (none, ⟨l, f.eof || l.isEmpty⟩)

/-- The `%d` conversion of a `fscanf` format (/repo/include/GMDP/utils/edgelist.h:110-125).  A number outside `int` is
undefined behaviour (outer `none`). -/
def FileSt.convInt (f : FileSt Char) : Option (Option Int × FileSt Char) :=
  let r := f.conv scanInt
  match r.1 with
  | some x => if INT_MIN ≤ x ∧ x ≤ INT_MAX then some r else none
  | none => some r

/-- How weights are written in text: the conversions `%f`, `%lf`, `%d`, `%u` of
/repo/include/GMDP/utils/edgelist.h:109-121 after skipping white space, and `(T)(1)`.  All four are represented by a function that
splits the value off the front of the text. -/
structure TextType (E : Type) where
  /-- the conversion -/
  scan : List Char → Option (E × List Char)
  /-- `(T)(1)`, /repo/include/GMDP/utils/edgelist.h:127 -/
  one : E

/-- `readLine` with `binaryformat == false`, the third item and the final test, /repo/include/GMDP/utils/edgelist.h:108-130. -/
def readLineTextVal (tt : TextType E) (weights : Bool) (s d : Int) (f : FileSt Char) : LineOut E × FileSt Char :=
  if weights then
    let r := f.conv tt.scan
    match r.1 with
    | none => (⟨some s, some d, none, false⟩, r.2)
    | some v => (⟨some s, some d, some v, !r.2.eof⟩, r.2)
  else (⟨some s, some d, some tt.one, !f.eof⟩, f)

/-- `readLine` with `binaryformat == false`, /repo/include/GMDP/utils/edgelist.h:108-130, for the four element types the code
supports (for any other type with weights the code prints a message, reads nothing and returns `true` for ever). -/
def readLineText (tt : TextType E) (weights : Bool) (f : FileSt Char) : Option (LineOut E × FileSt Char) := do
  let r ← f.convInt
  match r.1 with
  | none => some (⟨none, none, none, false⟩, r.2)
  | some s => do
    let q ← r.2.convInt
    match q.1 with
    | none => some (⟨some s, none, none, false⟩, q.2)
    | some d => some (readLineTextVal tt weights s d q.2)

/-- `get_maxid_and_nnz` with `header` in text format, /repo/include/GMDP/utils/edgelist.h:145-150.  The third number is
read with `%u` into an `int`; counts above `INT_MAX` are not modelled (`none`). -/
def readHeaderText (f : FileSt Char) : Option ((Int × Int × Int) × FileSt Char) := do
  let a ← f.convInt
  let m ← a.1
  let b ← a.2.convInt
  let n ← b.1
  let c ← b.2.convInt
  let k ← c.1
  if k < 0 then none else some ((m, n, k), c.2)

/-- Decimal digits of a number as `fprintf` writes them for `%d` (/repo/include/GMDP/utils/edgelist.h:190-201, 232);
`fuel` larger than the number is enough. -/
def printDigits : Nat → Nat → List Char
  | 0, _ => []
  | fuel + 1, n =>
    if n < 10 then [Char.ofNat (48 + n)] else printDigits fuel (n / 10) ++ [Char.ofNat (48 + n % 10)]

/-- `%d` of `fprintf` (/repo/include/GMDP/utils/edgelist.h:196, 203, 232). -/
def printInt (x : Int) : List Char :=
  if x < 0 then '-' :: printDigits (x.natAbs + 1) x.natAbs else printDigits (x.natAbs + 1) x.natAbs

/-- `writeLine` in text format, /repo/include/GMDP/utils/edgelist.h:189-205.  `pr` is what `fprintf` writes for a weight:
`printInt` for `T = int`, `printFloat` (`Model/FloatText`) for `float` and `double`. -/
def writeLineText (pr : E → List Char) (weights : Bool) (e : Edge E) : List Char :=
  if weights then printInt e.src ++ [' '] ++ printInt e.dst ++ [' '] ++ pr e.val ++ ['\n']
  else printInt e.src ++ [' '] ++ printInt e.dst ++ ['\n']

/-- `write_edgelist` in text format, /repo/include/GMDP/utils/edgelist.h:208-240.  (`nnz` is printed with
`%u`, which is the same for a nonnegative `int`.) -/
def writeText (pr : E → List Char) (header weights : Bool) (el : EdgeList E) : Option (List Char) := do
  let hd := if header then printInt el.m ++ [' '] ++ printInt el.n ++ [' '] ++ printInt (el.nnz : Int) ++ ['\n'] else []
  forLoop 0 el.nnz hd (fun i out => do
    let e ← el.edges.read i
    some (out ++ writeLineText pr weights e))

/-! ### Loading -/

/-- The two operations on an open file that depend on the format: `readLine` and the header branch of
`get_maxid_and_nnz` (/repo/include/GMDP/utils/edgelist.h:89-152). -/
structure Reader (C E : Type) where
  /-- `readLine` -/
  line : FileSt C → Option (LineOut E × FileSt C)
  /-- the header -/
  head : FileSt C → Option ((Int × Int × Int) × FileSt C)

/-- The binary format, /repo/include/GMDP/utils/edgelist.h:92-106, 139-144. -/
def binReader (bt : BinType E) (weights : Bool) : Reader Nat E := ⟨readLineBin bt weights, readHeaderBin⟩

/-- The text format, /repo/include/GMDP/utils/edgelist.h:107-130, 145-150. -/
def textReader (tt : TextType E) (weights : Bool) : Reader Char E := ⟨readLineText tt weights, readHeaderText⟩

/-- The `while(true)` loop of `get_maxid_and_nnz` without header, /repo/include/GMDP/utils/edgelist.h:159-168; the state is
`(maxm, maxn, nnz_)`.  `fuel` bounds the number of rounds; `none` when it runs out (the loop does not end) or when an
uninitialised `tempsrc`/`tempdst` would be used. -/
def countLoop (R : Reader C E) : Nat → FileSt C → Int × Int × Nat → Option (Int × Int × Nat)
  | 0, _, _ => none
  | fuel + 1, f, st =>
    if f.eof then some st
    else do
      let r ← R.line f
      if r.1.ok then do
        let s ← r.1.src
        let d ← r.1.dst
        countLoop R fuel r.2 (if st.1 > s then st.1 else s, if st.2.1 > d then st.2.1 else d, st.2.2 + 1)
      else some st

/-- `get_maxid_and_nnz` on a freshly opened file, /repo/include/GMDP/utils/edgelist.h:135-174.  A header with a negative
count would be converted to a huge `unsigned long` (`none`).  Every successful `readLine` consumes something, so
`length + 1` rounds are enough for the loop. -/
def getMaxidAndNnz (R : Reader C E) (header : Bool) (c : List C) : Option (Int × Int × Nat) :=
  if header then do
    let r ← R.head (FileSt.openRead c)
    let k ← natIdx r.1.2.2
    some (r.1.1, r.1.2.1, k)
  else countLoop R (c.length + 1) (FileSt.openRead c) (0, 0, 0)

/-- The stores of `readLine` through its pointers into `edgelist->edges[cnt]`
(/repo/include/GMDP/utils/edgelist.h:315, with 93-130).  Nothing is touched when nothing was stored, so the address one past the end
is harmless then; any store outside the array is undefined behaviour. -/
def storeLine (cnt : Nat) (o : LineOut E) (edges : Arr (Edge E)) : Option (Arr (Edge E)) :=
  if o.src.isNone ∧ o.dst.isNone ∧ o.val.isNone then some edges
  else do
    let e ← edges.read cnt
    edges.write cnt ⟨o.src.getD e.src, o.dst.getD e.dst, o.val.getD e.val⟩

/-- The `while(true)` loop of the second pass of `load_edgelist`, /repo/include/GMDP/utils/edgelist.h:313-331; the state is
`(edges, nnzcnt)`.  (`__DEBUG` is not defined.) -/
def storeLoop (R : Reader C E) : Nat → FileSt C → Arr (Edge E) × Nat → Option (Arr (Edge E) × Nat)
  | 0, _, _ => none
  | fuel + 1, f, st =>
    if f.eof then some st
    else do
      let r ← R.line f
      let edges ← storeLine st.2 r.1 st.1
      if r.1.ok then storeLoop R fuel r.2 (edges, st.2 + 1) else some (edges, st.2)

/-- One file of the second pass of `load_edgelist`, /repo/include/GMDP/utils/edgelist.h:296-332. -/
def storeFile (R : Reader C E) (header : Bool) (c : List C) (st : Arr (Edge E) × Nat) : Option (Arr (Edge E) × Nat) :=
  if header then do
    let r ← R.head (FileSt.openRead c)
    storeLoop R (c.length + 1) r.2 st
  else storeLoop R (c.length + 1) (FileSt.openRead c) st

/-- The files that the loops `for(int i = global_myrank ; ; i += global_nrank)` open
(/repo/include/GMDP/utils/edgelist.h:249-269, 296-306): numbers `i`, `i + nrank`, ... up to the first that does not exist.
`fs` is the directory: files number `0` to `fs.length - 1` exist (a directory with holes in the numbering is not
modelled).  `fuel` bounds the number of rounds. -/
def openFiles {F : Type} (fs : List F) (nrank : Nat) : Nat → Nat → List F
  | 0, _ => []
  | fuel + 1, i =>
    match fs[i]? with
    | none => []
    | some f => f :: openFiles fs nrank fuel (i + nrank)

/-- The first pass of `load_edgelist` on one rank, /repo/include/GMDP/utils/edgelist.h:246-279: `(m, n, nnz)`; `nnz` is
an `int`. -/
def loadPass1 (R : Reader C E) (header : Bool) (files : List (List C)) : Option (Int × Int × Nat) :=
  files.foldlM (fun st c => do
    let r ← getMaxidAndNnz R header c
    let k ← ck ((st.2.2 : Int) + r.2.2)
    some (max r.1 st.1, max r.2.1 st.2.1, k.toNat)) (0, 0, 0)

/-- The second pass of `load_edgelist` on one rank, /repo/include/GMDP/utils/edgelist.h:291-333, with the allocation of
`nnz` uninitialised edges. -/
def loadPass2 (R : Reader C E) (header : Bool) (g : Nat → Edge E) (files : List (List C)) (nnz : Nat) :
    Option (Arr (Edge E)) := do
  let r ← files.foldlM (fun st c => storeFile R header c st) ((⟨nnz, g⟩ : Arr (Edge E)), 0)
  some r.1

/-- `load_edgelist` on all ranks together, /repo/include/GMDP/utils/edgelist.h:242-334: the first pass of every rank, the
`MPI_Allreduce` with `MPI_MAX` of the dimensions (280-287), the second pass of every rank.  `g r` is the uninitialised
memory on rank `r`. -/
def loadEdgelist (R : Reader C E) (header : Bool) (nrank : Nat) (g : Nat → Nat → Edge E) (fs : List (List C)) :
    Option (List (EdgeList E)) := do
  let p1 ← (List.range nrank).mapM (fun r => loadPass1 R header (openFiles fs nrank (fs.length + 1) r))
  let m := (p1.map (fun p => p.1)).foldl max 0
  let n := (p1.map (fun p => p.2.1)).foldl max 0
  (List.range nrank).mapM (fun r => do
    let p ← p1[r]?
    let edges ← loadPass2 R header (g r) (openFiles fs nrank (fs.length + 1) r) p.2.2
    some ⟨edges, m, n, p.2.2⟩)

end GraphMat
