import Verif.Lemmas.FloatBits
import Verif.Props.FloatText
import Verif.Props.Converter

/-!
# C48 for `float` and `double`

The converter with the three edge types of the program as they are: `unsigned int`, `double` (binary64, 15 decimals in text)
and `float` (binary32, 8 decimals in text).
-/
namespace GraphMat

/-- The text denotes the weight. -/
def floatBitsText (f : FloatFmt) (w : Nat) (v : BitVec w) (l : List Char) : Prop := ∃ u, FloatDenotes f u l ∧ v = valueBits f w u

/-- What a weight becomes in text. -/
def floatBack (f : FloatFmt) (w d : Nat) (v : BitVec w) : BitVec w := valueBits f w ((bitsValue f v).back f d)

theorem floatConv_good {f : FloatFmt} {w : Nat} (hw : w = w / 8 * 8) (d : Nat) :
    (floatConv f w d).Good (floatBitsText f w) (floatOne f w) where
  bin :=
    { len := fun v => bytesOf_length _ _
      dec := fun v => by
        show BitVec.ofNat w (numOf (bytesOf (w / 8) v.toNat)) = v
        rw [numOf_bytesOf]
        have : 256 ^ (w / 8) = 2 ^ w := by
          rw [show 256 = 2 ^ 8 by rfl, ← pow_mul, Nat.mul_comm, ← hw]
        rw [this, Nat.mod_eq_of_lt v.isLt, BitVec.ofNat_toNat, BitVec.setWidth_eq] }
  binOne := rfl
  text :=
    { solid := by
        rintro v l ⟨u, hu, rfl⟩
        exact (floatText_reads f).solid _ _ hu
      scan := by
        rintro v l rest ⟨u, hu, rfl⟩ hr
        have h := (floatText_reads f).scan _ _ _ hu hr
        show (scanFloat f (l ++ rest)).map _ = _
        have h' : scanFloat f (l ++ rest) = some (u, rest) := h
        rw [h']
        rfl }
  textOne := rfl

theorem IsFNum.wf {p : Nat} {a b : Int} {v : FNum} (h : IsFNum p a b v) : v.Wf := by
  cases v with
  | fin neg m => exact h.1
  | inf _ => trivial
  | nan _ => trivial

theorem floatConv_print {f : FloatFmt} {w : Nat} (h : Ieee f w) (d : Nat) (v : BitVec w) :
    floatBitsText f w (floatBack f w d v) ((floatConv f w d).print v) :=
  ⟨_, printFloat_denotes f d (isFNum_bitsValue h v).wf, rfl⟩

/-- What text keeps of a weight, in terms of the values of the bits. -/
theorem floatBack_kept {f : FloatFmt} {w d : Nat} {big : Rat} (h : Ieee f w) (hk : TextKind f d big) (v : BitVec w) :
    TextKept f.prec f.emin f.emax d big (bitsValue f v) (bitsValue f (floatBack f w d v)) := by
  have h1 := isFNum_bitsValue h v
  have h2 := textKept_back hk h1
  have h3 : IsFNum f.prec f.emin f.emax ((bitsValue f v).back f d) := by
    cases hv : bitsValue f v with
    | inf _ => trivial
    | nan _ => trivial
    | fin neg m =>
      rw [hv] at h2
      obtain ⟨m', a1, a2, a3, _⟩ := h2.near neg m rfl
      rw [a1]
      exact ⟨a2, a3⟩
  unfold floatBack
  rw [bitsValue_valueBits h h3]
  exact h2

/-! ### The three edge types -/

/-- The size of an edge weight in bits. -/
def WeightType.bits : WeightType → Nat
  | .uint => 32
  | .double => 64
  | .float => 32

/-- The three edge types of the converter. -/
def convTypes : ∀ k : WeightType, ConvType (BitVec k.bits)
  | .uint => uintConv
  | .double => floatConv b64 64 15
  | .float => floatConv b32 32 8

/-- The text denotes the weight. -/
def convText : ∀ k : WeightType, BitVec k.bits → List Char → Prop
  | .uint => uintText
  | .double => floatBitsText b64 64
  | .float => floatBitsText b32 32

/-- The weight 1. -/
def convOne : ∀ k : WeightType, BitVec k.bits
  | .uint => 1
  | .double => floatOne b64 64
  | .float => floatOne b32 32

/-- What a weight becomes in text. -/
def convBack : ∀ k : WeightType, BitVec k.bits → BitVec k.bits
  | .uint => id
  | .double => floatBack b64 64 15
  | .float => floatBack b32 32 8

/-- What text files keep of a weight `v` that comes back as `v'`: an `unsigned int` stays; of a `double` or `float`, what
`TextKept` says of the values. -/
def ConvKept : ∀ k : WeightType, BitVec k.bits → BitVec k.bits → Prop
  | .uint => fun v v' => v' = v
  | .double => fun v v' => TextKept 53 (-1022) 1023 15 8 (bitsValue b64 v) (bitsValue b64 v')
  | .float => fun v v' => TextKept 24 (-126) 127 8 (1 / 8) (bitsValue b32 v) (bitsValue b32 v')

theorem convTypes_good (k : WeightType) : (convTypes k).Good (convText k) (convOne k) := by
  cases k
  · exact uintConv_good
  · exact floatConv_good rfl 15
  · exact floatConv_good rfl 8

theorem convTypes_print (k : WeightType) (v : BitVec k.bits) : convText k (convBack k v) ((convTypes k).print v) := by
  cases k
  · exact uintConv_print v
  · exact floatConv_print ieee64 15 v
  · exact floatConv_print ieee32 8 v

theorem convBack_kept (k : WeightType) (v : BitVec k.bits) : ConvKept k v (convBack k v) := by
  cases k
  · exact rfl
  · exact floatBack_kept ieee64 (.inr ⟨rfl, rfl, rfl⟩) v
  · exact floatBack_kept ieee32 (.inl ⟨rfl, rfl, rfl⟩) v

/-- The weight 1 has the value 1. -/
theorem convOne_value : convOne .uint = 1 ∧ bitsValue b64 (convOne .double) = .fin false 1 ∧
    bitsValue b32 (convOne .float) = .fin false 1 := by decide +kernel

/-- The value `v` with `p` digits is the number `t` rounded to nearest, with its sign. -/
def RoundedTo (p : Nat) (emin emax : Int) (t : Rat) (v : FNum) : Prop :=
  ∃ m, v = .fin (decide (t < 0)) m ∧ 0 ≤ m ∧ IsFloat p emin emax m ∧ ∀ z, IsFloat p emin emax z → |(|t| - m)| ≤ |(|t| - z)|

/-- What the number `t` becomes as a weight: an `unsigned int` loses the fraction, the others are rounded. -/
def ConvCast : ∀ k : WeightType, Rat → BitVec k.bits → Prop
  | .uint => fun t v => 0 ≤ t → (v.toNat : Rat) ≤ t ∧ t < (v.toNat : Rat) + 1
  | .double => fun t v => RoundedTo 53 (-1022) 1023 t (bitsValue b64 v)
  | .float => fun t v => RoundedTo 24 (-126) 127 t (bitsValue b32 v)

theorem floatCast_rounds {f : FloatFmt} {w : Nat} (h : Ieee f w) (d : Nat) {t : Rat}
    (ht : |t| < pow2 (f.emax + 1) - pow2 (f.emax - f.prec)) :
    RoundedTo f.prec f.emin f.emax t (bitsValue f ((floatConv f w d).cast t)) := by
  obtain ⟨h1, h2, _⟩ := h.le
  have he : f.emin ≤ f.emax := by omega
  show RoundedTo _ _ _ t (bitsValue f (valueBits f w (castFloat f t)))
  have key : ∃ m, castFloat f t = .fin (decide (t < 0)) m ∧ 0 ≤ m ∧ f.round |t| = some m := by
    unfold castFloat
    rw [mag_eq]
    cases hr : f.round |t| with
    | none =>
      have := f.round_over he hr
      rw [abs_abs] at this
      exact absurd ht (not_lt.mpr this)
    | some m =>
      refine ⟨m, rfl, ?_, rfl⟩
      rw [(FloatFmt.round_inv hr).1]
      exact f.near_nonneg (abs_nonneg t)
  obtain ⟨m, e1, e2, e3⟩ := key
  obtain ⟨r1, r2⟩ := f.round_spec h.prec he e3
  rw [e1, bitsValue_valueBits h (v := .fin (decide (t < 0)) m) ⟨e2, r1⟩]
  exact ⟨m, rfl, e2, r1, fun z hz => (r2 z hz).1⟩

/-- Numbers below `2^32`, which random weights are, are converted to each of the three types as C++ does. -/
theorem convTypes_cast (k : WeightType) {t : Rat} (ht : |t| < 4294967296) : ConvCast k t ((convTypes k).cast t) := by
  cases k
  · intro h0
    show (((BitVec.ofInt 32 t.floor).toNat : Nat) : Rat) ≤ t ∧ t < (((BitVec.ofInt 32 t.floor).toNat : Nat) : Rat) + 1
    rw [abs_of_nonneg h0] at ht
    obtain ⟨f1, f2⟩ := floor_bounds t
    have g1 : 0 ≤ t.floor := by
      have : (-1 : Rat) < t.floor := by linarith
      have : (-1 : Int) < t.floor := by exact_mod_cast this
      omega
    have g2 : t.floor < 4294967296 := by
      have : (t.floor : Rat) < 4294967296 := by linarith
      exact_mod_cast this
    have e : ((BitVec.ofInt 32 t.floor).toNat : Int) = t.floor := by
      rw [BitVec.toNat_ofInt]
      omega
    have e' : (((BitVec.ofInt 32 t.floor).toNat : Nat) : Rat) = (t.floor : Rat) := by
      generalize (BitVec.ofInt 32 t.floor).toNat = q at e ⊢
      rw [← e]
      exact (Int.cast_natCast (R := Rat) q).symm
    rw [e']
    exact ⟨f1, f2⟩
  · exact floatCast_rounds ieee64 15 (lt_trans ht (by decide +kernel))
  · exact floatCast_rounds ieee32 8 (lt_trans ht (by decide +kernel))

/-- A number between two `float`s. -/
example : ∃ v, ConvCast .float (1 / 10) v ∧ bitsValue b32 v = .fin false (13421773 / 134217728) :=
  ⟨_, convTypes_cast .float (by rw [abs_of_nonneg] <;> norm_num), by decide +kernel⟩

/-- The circumstances of a run of the converter with the edge type `k`; nothing is assumed of the type. -/
structure ConvRuns (k : WeightType) (env : ConvEnv (BitVec k.bits)) (o : Options) (inp : InFiles (BitVec k.bits)) (N : Int)
    (l : List (Edge (BitVec k.bits))) : Prop where
  ranks : 0 < env.nrank ∧ env.nrank ≤ IMAX
  threads : 0 < env.threads
  /-- the library sorts -/
  sort : ∀ r, SortsBy compareForDuplicates (env.sort r)
  /-- the input holds a graph with `N` vertices and the edges `l` -/
  input : InputHas (convTypes k) (convText k) (convOne k) env.threads env.nrank o inp N l
  vertices : 0 ≤ N ∧ N ≤ (IMAX : Int)
  ids : IdsWithin N l
  /-- the numbers of edges fit in an `int` -/
  few : l.length * (if o.bidirectional = 1 then 2 else 1) ≤ IMAX
  format : o.outputformat = 0 ∨ o.outputformat = 1 ∨ o.outputformat = 2
  /-- the third output format: sorting in `ReadEdgelist`, and the number of partitions fits in an `int` -/
  snap : o.outputformat = 2 → env.wr.sA.OK ∧ env.wr.sAT.OK ∧ env.threads * 16 * env.nrank ≤ IMAX

/-- **C48, the program with its three edge types.**  With compatible options, `selfloops` 0 or 1 and one of the three edge
types, the converter ends normally, having used that edge type, and has written edges `l'` that the options describe.
Binary files and snapshots give back `l'` exactly.  Text files give back the edges of `l'` with weights changed by a
function `bk`: it changes no `unsigned int`, and of a `double` or `float` text keeps what `TextKept` says (C76).  Random
weights, which are at least 1 and at most an `int`, lose their fraction as `unsigned int`s and are rounded to nearest otherwise.

Missing from the full property: `--outputedgeweights 2` is only covered when the weights are 1 in the first place
(`unit_weights_not_created`); values of options that the help text does not list are accepted
(`unlisted_output_writes_nothing`, `unlisted_input_reads_nothing`); `double` and `float` weights are rounded in text files
(`float_conversion_changes`). -/
theorem converter_types_partial {env : ∀ k, ConvEnv (BitVec (WeightType.bits k))} {inp : ∀ k, InFiles (BitVec (WeightType.bits k))}
    {args : List Setting} {k : WeightType} {N : Int} {l : List (Edge (BitVec k.bits))} (hc : (readOptions args).Compatible)
    (hs : (readOptions args).selfloops = 0 ∨ (readOptions args).selfloops = 1)
    (hk : (readOptions args).edgeweighttype = k.code)
    (h : ConvRuns k (env k) (readOptions args) (inp k) N l)
    (hone : (readOptions args).outputedgeweights = 2 → ∀ e ∈ l, e.val = convOne k) :
    ∃ out l' bk, convertMain convTypes env inp args = some (.done k out) ∧
      Converted (readOptions args) N (convOne k) (convTypes k).cast l l' ∧
      OutputHas (convTypes k) bk (convOne k) (env k).threads (env k).nrank (readOptions args) N l' out ∧
      (∀ v, ConvKept k v (bk v)) ∧ ∀ t, 1 ≤ t → t < 4294967296 → ConvCast k t ((convTypes k).cast t) := by
  obtain ⟨out, l', h1, h2, h3⟩ := converter_main_partial (ct := convTypes) (bk := convBack k) hc hs hk
    { good := convTypes_good k
      ranks := h.ranks
      threads := h.threads
      sort := h.sort
      input := h.input
      vertices := h.vertices
      ids := h.ids
      few := h.few
      format := h.format
      print := fun _ _ v => convTypes_print k v
      snap := h.snap } hone
  exact ⟨out, l', _, h1, h2, h3, fun v => convBack_kept k v,
    fun t h1 h2 => convTypes_cast k (by rw [abs_of_nonneg (by linarith)]; exact h2)⟩

/-! ### Samples -/

/-- Two ranks with three threads each, for any edge type. -/
def convEnvOf (k : WeightType) : ConvEnv (BitVec k.bits) where
  threads := 3
  nrank := 2
  load := fun _ _ => ⟨0, 0, 99⟩
  t := fun r i => (r + 2 * i : Nat)
  g := fun _ _ _ => ⟨0, 0, 98⟩
  sort := fun _ => insSort compareForDuplicates
  gm := fun _ => 0
  rand := fun i => i + 1
  rd := LoadEnv.sample 0 0
  wr := LoadEnv.sample 0 0

/-- Weights 0.1, -2.5, infinity and the smallest number above 0. -/
def floatListSample (k : WeightType) : EdgeList (BitVec k.bits) :=
  EdgeList.ofList ⟨0, 0, 0⟩ 5 5 (match k with
    | .uint => [⟨1, 2, 10⟩, ⟨3, 1, 11⟩]
    | .double => [⟨1, 2, 0x3FB999999999999A#64⟩, ⟨3, 1, 0xC004000000000000#64⟩, ⟨4, 2, 0x7FF0000000000000#64⟩, ⟨2, 4, 1#64⟩]
    | .float => [⟨1, 2, 0x3DCCCCCD#32⟩, ⟨3, 1, 0xC0200000#32⟩, ⟨4, 2, 0x7F800000#32⟩, ⟨2, 4, 1#32⟩])

/-- The bytes of its file. -/
def floatBytesSample (k : WeightType) : List Nat := (writeBin (convTypes k).bin true true (floatListSample k)).getD []

/-- The circumstances hold for this input. -/
theorem runsSample (k : WeightType) (args : List Setting)
    (ha : ((readOptions args).inputformat = 0 ∧ (readOptions args).inputheader = 1 ∧ (readOptions args).inputedgeweights = 1 ∧
      (readOptions args).nvertices = 0) ∧ ((readOptions args).outputformat = 0 ∨ (readOptions args).outputformat = 1 ∨
      (readOptions args).outputformat = 2)) :
    ConvRuns k (convEnvOf k) (readOptions args) ⟨[floatBytesSample k], [], []⟩ 5 (floatListSample k).list := by
  have hw : writeBin (convTypes k).bin true true (floatListSample k) = some (floatBytesSample k) := by
    cases k <;> decide +kernel
  have hi : ∀ e ∈ (floatListSample k).list, 1 ≤ e.src ∧ e.src ≤ 5 ∧ 1 ≤ e.dst ∧ e.dst ≤ 5 := by
    cases k <;> decide +kernel
  have hl : (floatListSample k).list.length ≤ 4 := by cases k <;> decide +kernel
  have hin : InputHas (convTypes k) (convText k) (convOne k) (convEnvOf k).threads (convEnvOf k).nrank (readOptions args)
      ⟨[floatBytesSample k], [], []⟩
      (vertexCount (readOptions args) (if (readOptions args).inputheader = 1
        then [floatListSample k].map EdgeList.m ++ [floatListSample k].map EdgeList.n
        else ([floatListSample k].flatMap EdgeList.list).map Edge.src ++ ([floatListSample k].flatMap EdgeList.list).map Edge.dst))
      (([floatListSample k].flatMap EdgeList.list).map
        (seenEdge (decide ((readOptions args).inputedgeweights = 1)) (convOne k))) :=
    .bin [floatListSample k] ha.1.1 (by
        intro f hf
        rw [List.mem_singleton] at hf
        subst hf
        refine ⟨EdgeList.ofList_wf .., by show IsInt32 5; unfold IsInt32; decide, by show IsInt32 5; unfold IsInt32; decide, ?_⟩
        intro e he
        have := hi e he
        unfold IsInt32
        omega) (by
        rw [ha.1.2.1, ha.1.2.2.1]
        show (([floatListSample k].mapM (writeBin (convTypes k).bin true true)) : Option _) = _
        simp [hw]) (by rw [ha.1.2.2.2]; intro h; omega)
  have e1 : (vertexCount (readOptions args) (if (readOptions args).inputheader = 1
        then [floatListSample k].map EdgeList.m ++ [floatListSample k].map EdgeList.n
        else ([floatListSample k].flatMap EdgeList.list).map Edge.src ++
          ([floatListSample k].flatMap EdgeList.list).map Edge.dst)) = 5 := by
    rw [ha.1.2.1]
    unfold vertexCount
    rw [ha.1.2.2.2]
    rfl
  have e2 : (([floatListSample k].flatMap EdgeList.list).map
      (seenEdge (decide ((readOptions args).inputedgeweights = 1)) (convOne k))) = (floatListSample k).list := by
    rw [ha.1.2.2.1]
    simp [seenEdge_weights]
  rw [e1, e2] at hin
  exact
    { ranks := ⟨by show 0 < 2; decide, by show 2 ≤ IMAX; unfold IMAX; decide⟩
      threads := by show 0 < 3; decide
      sort := fun _ => compareForDuplicates_sorts
      input := hin
      vertices := ⟨by decide, by unfold IMAX; decide⟩
      ids := hi
      few := by unfold IMAX; split <;> omega
      format := ha.2
      snap := fun _ => ⟨Sorts.ins_ok, Sorts.ins_ok, by show 3 * 16 * 2 ≤ IMAX; unfold IMAX; decide⟩ }

example : ∃ out l' bk, convertMain convTypes convEnvOf (fun k => ⟨[floatBytesSample k], [], []⟩)
      [.inputformat 0, .outputformat 1, .edgeweighttype 1, .bidirectional] = some (.done .double out) ∧
    Converted (readOptions [.inputformat 0, .outputformat 1, .edgeweighttype 1, .bidirectional]) 5 (convOne .double)
      (convTypes .double).cast (floatListSample .double).list l' ∧
    OutputHas (convTypes .double) bk (convOne .double) 3 2
      (readOptions [.inputformat 0, .outputformat 1, .edgeweighttype 1, .bidirectional]) 5 l' out ∧
    (∀ v, ConvKept .double v (bk v)) ∧ ∀ t, 1 ≤ t → t < 4294967296 → ConvCast .double t ((convTypes .double).cast t) :=
  converter_types_partial (env := convEnvOf) (inp := fun k => ⟨[floatBytesSample k], [], []⟩) (k := .double)
    ⟨by decide, by decide, by decide⟩ (by decide) (by decide) (runsSample .double _ (by decide)) (by decide)

example : ∃ out l' bk, convertMain convTypes convEnvOf (fun k => ⟨[floatBytesSample k], [], []⟩)
      [.inputformat 0, .outputformat 1, .edgeweighttype 2, .randomizeID] = some (.done .float out) ∧
    Converted (readOptions [.inputformat 0, .outputformat 1, .edgeweighttype 2, .randomizeID]) 5 (convOne .float)
      (convTypes .float).cast (floatListSample .float).list l' ∧
    OutputHas (convTypes .float) bk (convOne .float) 3 2
      (readOptions [.inputformat 0, .outputformat 1, .edgeweighttype 2, .randomizeID]) 5 l' out ∧
    (∀ v, ConvKept .float v (bk v)) ∧ ∀ t, 1 ≤ t → t < 4294967296 → ConvCast .float t ((convTypes .float).cast t) :=
  converter_types_partial (env := convEnvOf) (inp := fun k => ⟨[floatBytesSample k], [], []⟩) (k := .float)
    ⟨by decide, by decide, by decide⟩ (by decide) (by decide) (runsSample .float _ (by decide)) (by decide)

/-- Test: the values. -/
example : (floatListSample .float).list.map (fun e => bitsValue b32 e.val)
    = [.fin false (13421773 / 134217728), .fin true (5 / 2), .inf false, .fin false (1 / 2 ^ 149)] := by decide +kernel

/-- Test: `float` weights to text; the smallest number is lost. -/
example : (processGraph (convTypes .float) (convEnvOf .float) (readOptions [.inputformat 0, .outputformat 1, .edgeweighttype 2])
    ⟨[floatBytesSample .float], [], []⟩).map OutFiles.texts
      = some ["5 5 2\n1 2 0.10000000\n3 1 -2.50000000\n", "5 5 2\n2 4 0.00000000\n4 2 inf\n"] := by
  decide +kernel

/-- Test: `double` weights to text. -/
example : (processGraph (convTypes .double) (convEnvOf .double) (readOptions [.inputformat 0, .outputformat 1, .edgeweighttype 1])
    ⟨[floatBytesSample .double], [], []⟩).map OutFiles.texts
      = some ["5 5 2\n1 2 0.100000000000000\n3 1 -2.500000000000000\n", "5 5 2\n2 4 0.000000000000000\n4 2 inf\n"] := by
  decide +kernel

/-- Writing and reading text changes weights: converting from binary files to text and back does not keep the weight of the
edge from 2 to 4, which is the smallest number above 0 and becomes 0. -/
theorem float_conversion_changes :
    (∃ fs els, processGraph (convTypes .float) (convEnvOf .float) (readOptions [.inputformat 0, .outputformat 1, .edgeweighttype 2])
        ⟨[floatBytesSample .float], [], []⟩ = some (.text fs) ∧
      loadEdgelist (textReader (convTypes .float).text true) true 1 (fun _ _ => ⟨0, 0, 0⟩) fs = some els ∧
      (⟨2, 4, 1#32⟩ : Edge (BitVec 32)) ∈ (floatListSample .float).list ∧
      (⟨2, 4, 0#32⟩ : Edge (BitVec 32)) ∈ els.flatMap EdgeList.list) ∧
    (∃ fs els, processGraph (convTypes .double) (convEnvOf .double) (readOptions [.inputformat 0, .outputformat 1, .edgeweighttype 1])
        ⟨[floatBytesSample .double], [], []⟩ = some (.text fs) ∧
      loadEdgelist (textReader (convTypes .double).text true) true 1 (fun _ _ => ⟨0, 0, 0⟩) fs = some els ∧
      (⟨2, 4, 1#64⟩ : Edge (BitVec 64)) ∈ (floatListSample .double).list ∧
      (⟨2, 4, 0#64⟩ : Edge (BitVec 64)) ∈ els.flatMap EdgeList.list) := by
  have key : ∀ {E : Type} (a : Option (OutFiles E)) (rd : List (List Char) → Option (List (EdgeList E))) (P : List (EdgeList E) → Prop)
      [DecidablePred P],
      (match a with | some (.text fs) => (match rd fs with | some els => decide (P els) | none => false) | _ => false) = true →
      ∃ fs els, a = some (.text fs) ∧ rd fs = some els ∧ P els := by
    intro E a rd P _ h
    match a, h with
    | some (.text fs), h =>
      simp only at h
      cases hr : rd fs with
      | none => rw [hr] at h; cases h
      | some els => rw [hr] at h; exact ⟨fs, els, rfl, hr, of_decide_eq_true h⟩
  obtain ⟨fs, els, a1, a2, a3⟩ := key (E := BitVec 32)
    (processGraph (convTypes .float) (convEnvOf .float) (readOptions [.inputformat 0, .outputformat 1, .edgeweighttype 2])
        ⟨[floatBytesSample .float], [], []⟩)
    (loadEdgelist (textReader (convTypes .float).text true) true 1 (fun _ _ => ⟨0, 0, 0⟩))
    (fun els => (⟨2, 4, 0#32⟩ : Edge (BitVec 32)) ∈ els.flatMap EdgeList.list) (by decide +kernel)
  obtain ⟨fs', els', b1, b2, b3⟩ := key (E := BitVec 64)
    (processGraph (convTypes .double) (convEnvOf .double) (readOptions [.inputformat 0, .outputformat 1, .edgeweighttype 1])
        ⟨[floatBytesSample .double], [], []⟩)
    (loadEdgelist (textReader (convTypes .double).text true) true 1 (fun _ _ => ⟨0, 0, 0⟩))
    (fun els => (⟨2, 4, 0#64⟩ : Edge (BitVec 64)) ∈ els.flatMap EdgeList.list) (by decide +kernel)
  refine ⟨⟨fs, els, a1, a2, ?_, a3⟩, fs', els', b1, b2, ?_, b3⟩
  · unfold floatListSample
    rw [EdgeList.ofList_list]
    exact .tail _ (.tail _ (.tail _ (.head _)))
  · unfold floatListSample
    rw [EdgeList.ofList_list]
    exact .tail _ (.tail _ (.tail _ (.head _)))

end GraphMat
