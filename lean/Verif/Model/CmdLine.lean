import Verif.Model.Converter

/-!
# Command lines

Models how the programs of /repo/src read their command lines: the option loop of the converter
(/repo/src/graph_converter.cpp:226-309) with what it uses of `getopt_long` and `sscanf`, and the arguments of the example
programs.  `argv[0]` is left out: a command line is the list of the words behind it.

The library functions are described as far as the calls in /repo need them: GNU `getopt_long` (words that are not options
are moved behind the options; a single `--` ends the options; `--name value`, `--name=value`, `-cvalue`, `-c value`, several
letters without argument in one word), `sscanf` with `%i`, and `atoi`.
-/
namespace GraphMat

/-- A word of the command line, an entry of `argv` (/repo/src/graph_converter.cpp:224), without the final zero byte. -/
abbrev Str := List Char

/-- What an entry of the table of long options tells `getopt_long` to do, /repo/src/graph_converter.cpp:228-245: store 1 in a
variable and return 0, or return a letter. -/
inductive LongAct where
  | flag (s : Setting)
  | letter (c : Char)

/-- `struct option` as used in /repo/src/graph_converter.cpp:228-245. -/
structure LongOpt where
  /-- `name` -/
  name : Str
  /-- `has_arg` is `required_argument` -/
  arg : Bool
  /-- `flag` and `val` -/
  act : LongAct

/-- The table of long options, /repo/src/graph_converter.cpp:228-245.  It has no final entry with a null name. -/
def longOptions : List LongOpt := [
  ⟨"uppertriangular".toList, false, .flag .uppertriangular⟩,
  ⟨"bidirectional".toList, false, .flag .bidirectional⟩,
  ⟨"selfloops".toList, true, .letter 's'⟩,
  ⟨"duplicatededges".toList, true, .letter 'd'⟩,
  ⟨"inputformat".toList, true, .letter 'i'⟩,
  ⟨"outputformat".toList, true, .letter 'o'⟩,
  ⟨"inputheader".toList, true, .letter 'n'⟩,
  ⟨"outputheader".toList, true, .letter 'u'⟩,
  ⟨"inputedgeweights".toList, true, .letter 'e'⟩,
  ⟨"outputedgeweights".toList, true, .letter 'w'⟩,
  ⟨"edgeweighttype".toList, true, .letter 't'⟩,
  ⟨"r".toList, true, .letter 'r'⟩,
  ⟨"nvertices".toList, true, .letter 'v'⟩,
  ⟨"split".toList, true, .letter 'p'⟩,
  ⟨"randomizeID".toList, false, .flag .randomizeID⟩,
  ⟨"help".toList, false, .letter 'h'⟩]

/-- The letters, /repo/src/graph_converter.cpp:249; a colon means that the letter before it has an argument. -/
def shortOptions : List Char := "h:s:d:i:o:n:u:e:w:t:v:r:p".toList

/-- What one call of `getopt_long` (/repo/src/graph_converter.cpp:249) reports: `stored` an entry of the table with a flag
(returns 0), `letter` an option with `optarg` (`none` is the null pointer), `question` something wrong (returns `'?'`), `behind`
a search that runs past the end of the table (undefined). -/
inductive OptEvent where
  | stored (s : Setting)
  | letter (c : Char) (arg : Option Str)
  | question
  | behind

/-- Looking up a letter in the string of letters, /repo/src/graph_converter.cpp:249: whether it has an argument; `none` if
it is not there. -/
def findLetter (c : Char) : List Char → Option Bool
  | [] => none
  | [x] => if x = c then some false else none
  | x :: y :: l =>
    if y = ':' then (if x = c then some true else findLetter c l)
    else if x = c then some false else findLetter c (y :: l)

/-- The letters of one word (the calls of `getopt_long` at /repo/src/graph_converter.cpp:249 for one word).  `next` is the
following word of the command line.  Returns what the calls report and whether the following word is used up. -/
def clusterEvents (next : Option Str) : List Char → List OptEvent × Bool
  | [] => ([], false)
  | c :: cs =>
    match (if c = ':' ∨ c = ';' then none else findLetter c shortOptions) with
    | none => let r := clusterEvents next cs; (.question :: r.1, r.2)
    | some false => let r := clusterEvents next cs; (.letter c none :: r.1, r.2)
    | some true =>
      if cs ≠ [] then ([.letter c (some cs)], false)
      else match next with
        | some w => ([.letter c (some w)], true)
        | none => ([.question], false)

/-- What is reported for the entry `o` of the table with the argument `arg` (the call at
/repo/src/graph_converter.cpp:249). -/
def LongOpt.event (o : LongOpt) (arg : Option Str) : OptEvent :=
  match o.act with
  | .flag s => .stored s
  | .letter c => .letter c arg

/-- A word beginning with `--` (the call of `getopt_long` at /repo/src/graph_converter.cpp:249); `w` is what follows the two
dashes.  `getopt_long` searches the table for an entry with exactly the name; only if there is none, for entries whose names begin
so.  The second search ends at the entry with a null name, which the table does not have. -/
def longEvent (next : Option Str) (w : Str) : OptEvent × Bool :=
  let name := w.takeWhile (· ≠ '=')
  let rest := w.drop name.length
  match longOptions.find? (fun o => o.name = name) with
  | none => (.behind, false)
  | some o =>
    match rest with
    | _ :: value => (if o.arg then o.event (some value) else .question, false)
    | [] =>
      if o.arg then
        match next with
        | some v => (o.event (some v), true)
        | none => (.question, false)
      else (o.event none, false)

/-- All the calls of `getopt_long` (/repo/src/graph_converter.cpp:247-252): what they report until -1 is returned, and the words
from `optind` on, where the words that are not options have been moved to. -/
def getoptAll : List Str → List OptEvent × List Str
  | [] => ([], [])
  | a :: rest =>
    if a = ['-', '-'] then ([], rest)
    else match a with
      | '-' :: '-' :: w =>
        match rest with
        | [] => ([(longEvent none w).1], [])
        | b :: rest' =>
          let e := longEvent (some b) w
          let r := if e.2 then getoptAll rest' else getoptAll (b :: rest')
          (e.1 :: r.1, r.2)
      | '-' :: c :: cs =>
        match rest with
        | [] => ((clusterEvents none (c :: cs)).1, [])
        | b :: rest' =>
          let e := clusterEvents (some b) (c :: cs)
          let r := if e.2 then getoptAll rest' else getoptAll (b :: rest')
          (e.1 ++ r.1, r.2)
      | w =>
        let r := getoptAll rest
        (r.1, w :: r.2)

/-- The value of a digit in base `b` (`%i` in /repo/src/graph_converter.cpp:260-295). -/
def digitIn (b : Nat) (c : Char) : Option Nat :=
  let v := if '0' ≤ c ∧ c ≤ '9' then some (c.toNat - 48)
    else if 'a' ≤ c ∧ c ≤ 'f' then some (c.toNat - 87)
    else if 'A' ≤ c ∧ c ≤ 'F' then some (c.toNat - 55)
    else none
  v.filter (fun d => decide (d < b))

/-- The value of the digits at the front of a text in base `b`, added to those read so far (`%i` in
/repo/src/graph_converter.cpp:260-295). -/
def digitsIn (b : Nat) : List Char → Nat → Nat
  | [], acc => acc
  | c :: cs, acc =>
    match digitIn b c with
    | none => acc
    | some d => digitsIn b cs (b * acc + d)

/-- The number behind the sign for `%i` (/repo/src/graph_converter.cpp:260-295): `0x` means hexadecimal, another `0` octal.
`some none`: there is no number.  `none`: `0x` without a digit, where libraries differ. -/
def scanBase : List Char → Option (Option Nat)
  | '0' :: x :: cs =>
    if x = 'x' ∨ x = 'X' then
      match cs with
      | [] => none
      | d :: _ => if (digitIn 16 d).isSome then some (some (digitsIn 16 cs 0)) else none
    else some (some (digitsIn 8 (x :: cs) 0))
  | c :: cs => if (digitIn 10 c).isSome then some (some (digitsIn 10 (c :: cs) 0)) else some none
  | [] => some none

/-- `sscanf(s, "%i", &x)`, /repo/src/graph_converter.cpp:260-295: `some none` if nothing is stored; `none` if the number does not
fit (undefined). -/
def scanAuto (s : Str) : Option (Option Int) :=
  let r := match s.dropWhile isSpace with
    | '-' :: cs => (scanBase cs).map (Option.map (fun k : Nat => -(k : Int)))
    | '+' :: cs => (scanBase cs).map (Option.map (fun k : Nat => (k : Int)))
    | cs => (scanBase cs).map (Option.map (fun k : Nat => (k : Int)))
  match r with
  | some (some x) => if INT_MIN ≤ x ∧ x ≤ INT_MAX then some (some x) else none
  | other => other

/-- The cases of the `switch` that store a number, /repo/src/graph_converter.cpp:260-295. -/
def letterSetting (c : Char) (x : Int) : Option Setting :=
  if c = 's' then some (.selfloops x)
  else if c = 'd' then some (.duplicatededges x)
  else if c = 'i' then some (.inputformat x)
  else if c = 'o' then some (.outputformat x)
  else if c = 'n' then some (.inputheader x)
  else if c = 'u' then some (.outputheader x)
  else if c = 'e' then some (.inputedgeweights x)
  else if c = 'w' then some (.outputedgeweights x)
  else if c = 't' then some (.edgeweighttype x)
  else if c = 'v' then some (.nvertices x)
  else if c = 'r' then some (.r x)
  else if c = 'p' then some (.split x)
  else none

/-- A case of the `switch` with its `sscanf`, /repo/src/graph_converter.cpp:260-295: a null `optarg` is undefined; without a
number nothing is stored.  Other letters (`default: abort()`, 299-301) are never reported. -/
def storeLetter (o : Options) (c : Char) (arg : Option Str) : Option Options := do
  let s ← arg
  let x ← scanAuto s
  match x with
  | none => some o
  | some x =>
    let st ← letterSetting c x
    some (st.store o)

/-- The option loop, /repo/src/graph_converter.cpp:247-303: the options after it, or `some none` if the help was asked for;
`none` is undefined behaviour. -/
def optionLoop : List OptEvent → Options → Option (Option Options)
  | [], o => some (some o)
  | .stored s :: l, o => optionLoop l (s.store o)
  | .question :: l, o => optionLoop l o
  | .behind :: _, _ => none
  | .letter c arg :: l, o =>
    if c = 'h' then some none
    else do
      let o ← storeLetter o c arg
      optionLoop l o

/-- What the command line asks for, /repo/src/graph_converter.cpp:226-316: the help and nothing else, or a conversion. -/
inductive Command where
  | help
  | convert (o : Options) (input output : Str)

/-- `main` up to the validation of the options, /repo/src/graph_converter.cpp:226-308 and 315-316. -/
def readCommand (args : List Str) : Option Command := do
  let r := getoptAll args
  let o ← optionLoop r.1 initOptions
  match o with
  | none => some .help
  | some o =>
    match r.2 with
    | [f, g] => some (.convert o f g)
    | _ => some .help

/-- How the converter ends for a command line, /repo/src/graph_converter.cpp:224-337: `none` for the help, otherwise what
`convertMain` says about the files named. -/
def runConverter {T : WeightType → Type} (ct : ∀ k, ConvType (T k)) (env : ∀ k, ConvEnv (T k))
    (files : Str → ∀ k, InFiles (T k)) (args : List Str) : Option (Option (Str × ConvOutcome T)) := do
  let c ← readCommand args
  match c with
  | .help => some none
  | .convert o f g =>
    if validateOptions o then
      match weightType o.edgeweighttype with
      | none => some (some (g, .unknownType))
      | some k => (processGraph (ct k) (env k) o (files f k)).map (fun r => some (g, .done k r))
    else some (some (g, .rejected))

/-! ### The example programs -/

/-- `atoi`, /repo/src/BFS.cpp:166, /repo/src/SSSP.cpp:154, /repo/src/DeltaStepping.cpp:208-209, /repo/src/LDA.cpp:384-387: 0 without
a number; `none` if the number does not fit (undefined). -/
def atoi (s : Str) : Option Int :=
  match scanInt (s.dropWhile isSpace) with
  | none => some 0
  | some (x, _) => if INT_MIN ≤ x ∧ x ≤ INT_MAX then some x else none

/-- `main` of breadth-first search and of SSSP, /repo/src/BFS.cpp:158-168, /repo/src/SSSP.cpp:144-156: the arguments of
`run_bfs`, `run_sssp`; `some none` for the message about the format. -/
def sourceArgs : List Str → Option (Option (Str × Int))
  | f :: s :: _ => do
    let source ← atoi s
    some (some (f, source))
  | _ => some none

/-- `main` of delta-stepping, /repo/src/DeltaStepping.cpp:200-212: file, `delta`, `source`. -/
def deltaArgs : List Str → Option (Option (Str × Int × Int))
  | f :: d :: s :: _ => do
    let delta ← atoi d
    let source ← atoi s
    some (some (f, delta, source))
  | _ => some none

/-- `main` of LDA, /repo/src/LDA.cpp:377-390: file, `ndoc`, `nterms`, `niterations`. -/
def ldaArgs : List Str → Option (Option (Str × Int × Int × Int))
  | f :: d :: t :: more => do
    let ndoc ← atoi d
    let nterms ← atoi t
    let niterations ← match more with
      | i :: _ => atoi i
      | [] => some 10
    some (some (f, ndoc, nterms, niterations))
  | _ => some none

/-- `main` of PageRank, incremental PageRank, SGD, topological sort and triangle counting, /repo/src/PageRank.cpp:163-175,
/repo/src/IncrementalPageRank.cpp:171-183, /repo/src/SGD.cpp:226-235, /repo/src/TopologicalSort.cpp:194-205,
/repo/src/TriangleCounting.cpp:206-215: the name of the file. -/
def fileArgs : List Str → Option Str
  | f :: _ => some f
  | [] => none

end GraphMat
