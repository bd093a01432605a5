import Verif.Model.Converter
import Verif.Spec.EdgeFile
import Mathlib.Data.List.Forall2

/-!
# What the options of the graph converter mean (specification)

Taken from the help text, /repo/src/graph_converter.cpp:105-159.  The only part of the model used here is the record of
option values.
-/
namespace GraphMat

variable {E : Type}

/-- The option values that the help text lists. -/
structure Options.Documented (o : Options) : Prop where
  selfloops : o.selfloops = 0 ∨ o.selfloops = 1
  duplicatededges : o.duplicatededges = 0 ∨ o.duplicatededges = 1
  uppertriangular : o.uppertriangular = 0 ∨ o.uppertriangular = 1
  bidirectional : o.bidirectional = 0 ∨ o.bidirectional = 1
  inputformat : o.inputformat = 0 ∨ o.inputformat = 1 ∨ o.inputformat = 2
  outputformat : o.outputformat = 0 ∨ o.outputformat = 1 ∨ o.outputformat = 2
  inputheader : o.inputheader = 0 ∨ o.inputheader = 1
  outputheader : o.outputheader = 0 ∨ o.outputheader = 1
  inputedgeweights : o.inputedgeweights = 0 ∨ o.inputedgeweights = 1
  outputedgeweights : o.outputedgeweights = 0 ∨ o.outputedgeweights = 1 ∨ o.outputedgeweights = 2 ∨ o.outputedgeweights = 3
  edgeweighttype : o.edgeweighttype = 0 ∨ o.edgeweighttype = 1 ∨ o.edgeweighttype = 2
  randomizeID : o.randomizeID = 0 ∨ o.randomizeID = 1

/-- Options that do not contradict each other. -/
structure Options.Compatible (o : Options) : Prop where
  /-- both directions of each edge, or one: not both -/
  directions : ¬ (o.uppertriangular = 1 ∧ o.bidirectional = 1)
  /-- weights cannot be kept if there are none -/
  weights : ¬ (o.inputedgeweights = 0 ∧ o.outputedgeweights = 1)
  /-- splitting is done by the number of ranks -/
  splits : o.nsplits = 1

/-- `--outputedgeweights`: 2 creates unit weights, 3 creates random weights (`cast t` for some `t` between 1 and the range;
1 if the range is smaller), other values keep the weights. -/
def Weighted (o : Options) (one : E) (cast : Rat → E) (l a : List (Edge E)) : Prop :=
  if o.outputedgeweights = 2 then a = l.map (fun e => { e with val := one })
  else if o.outputedgeweights = 3 then
    List.Forall₂ (fun e f => f.src = e.src ∧ f.dst = e.dst ∧
      ∃ t : Rat, 1 ≤ t ∧ (t = 1 ∨ t ≤ (o.randomRange : Rat)) ∧ f.val = cast t) l a
  else a = l

/-- `e` has exactly one of the edges of `d` for each pair of ends. -/
def OneOfEach (d e : List (Edge E)) : Prop :=
  (e.map (fun x => (x.src, x.dst))).Nodup ∧ (∀ x ∈ e, x ∈ d) ∧ ∀ x ∈ d, ∃ y ∈ e, y.src = x.src ∧ y.dst = x.dst

/-- `π` is a permutation of `1..n`. -/
def PermutesIds (n : Int) (π : Int → Int) : Prop :=
  (∀ v, 1 ≤ v → v ≤ n → 1 ≤ π v ∧ π v ≤ n) ∧ (∀ u v, 1 ≤ u → u ≤ n → 1 ≤ v → v ≤ n → π u = π v → u = v) ∧
    ∀ w, 1 ≤ w → w ≤ n → ∃ v, 1 ≤ v ∧ v ≤ n ∧ π v = w

/-- The edges `out` are what the options say about the edges `l` of a graph with `n` vertices. -/
def Converted (o : Options) (n : Int) (one : E) (cast : Rat → E) (l out : List (Edge E)) : Prop :=
  ∃ a b c d e,
    Weighted o one cast l a ∧
    b = (if o.selfloops = 0 then a.filter (fun x => decide (x.src ≠ x.dst)) else a) ∧
    c = (if o.bidirectional = 1 then b ++ b.map (fun x => ⟨x.dst, x.src, x.val⟩) else b) ∧
    d = (if o.uppertriangular = 1 then c.map (fun x => ⟨min x.src x.dst, max x.src x.dst, x.val⟩) else c) ∧
    (if o.duplicatededges = 0 then OneOfEach d e else e = d) ∧
    if o.randomizeID = 1 then ∃ π, PermutesIds n π ∧ out.Perm (e.map (fun x => ⟨π x.src, π x.dst, x.val⟩))
    else out.Perm e

/-- The number of vertices for edge list files: `--nvertices` if given, otherwise the largest of the dimensions in the
headers or (without header) of the ids. -/
def vertexCount (o : Options) (dims : List Int) : Int := if o.nvertices > 0 then o.nvertices else topOf dims

/-- All ids are valid in a graph with `n` vertices. -/
def IdsWithin (n : Int) (l : List (Edge E)) : Prop := ∀ e ∈ l, 1 ≤ e.src ∧ e.src ≤ n ∧ 1 ≤ e.dst ∧ e.dst ≤ n

/-- The name of an option that carries a value. -/
inductive OptName where
  | selfloops | duplicatededges | uppertriangular | bidirectional | inputformat | outputformat | inputheader | outputheader
  | inputedgeweights | outputedgeweights | edgeweighttype | nvertices | r | split | randomizeID
  deriving DecidableEq

/-- The option and the value that an argument gives; the three flags mean 1. -/
def Setting.gives : Setting → OptName × Int
  | .uppertriangular => (.uppertriangular, 1)
  | .bidirectional => (.bidirectional, 1)
  | .randomizeID => (.randomizeID, 1)
  | .selfloops x => (.selfloops, x)
  | .duplicatededges x => (.duplicatededges, x)
  | .inputformat x => (.inputformat, x)
  | .outputformat x => (.outputformat, x)
  | .inputheader x => (.inputheader, x)
  | .outputheader x => (.outputheader, x)
  | .inputedgeweights x => (.inputedgeweights, x)
  | .outputedgeweights x => (.outputedgeweights, x)
  | .edgeweighttype x => (.edgeweighttype, x)
  | .r x => (.r, x)
  | .nvertices x => (.nvertices, x)
  | .split x => (.split, x)

/-- The value of an option. -/
def Options.value (o : Options) : OptName → Int
  | .selfloops => o.selfloops
  | .duplicatededges => o.duplicatededges
  | .uppertriangular => o.uppertriangular
  | .bidirectional => o.bidirectional
  | .inputformat => o.inputformat
  | .outputformat => o.outputformat
  | .inputheader => o.inputheader
  | .outputheader => o.outputheader
  | .inputedgeweights => o.inputedgeweights
  | .outputedgeweights => o.outputedgeweights
  | .edgeweighttype => o.edgeweighttype
  | .nvertices => o.nvertices
  | .r => o.randomRange
  | .split => o.nsplits
  | .randomizeID => o.randomizeID

/-- The defaults in the help text. -/
def OptName.default : OptName → Int
  | .selfloops => 0
  | .duplicatededges => 0
  | .uppertriangular => 0
  | .bidirectional => 0
  | .inputformat => 1
  | .outputformat => 0
  | .inputheader => 1
  | .outputheader => 1
  | .inputedgeweights => 1
  | .outputedgeweights => 1
  | .edgeweighttype => 0
  | .nvertices => 0
  | .r => 128
  | .split => 1
  | .randomizeID => 0

end GraphMat
