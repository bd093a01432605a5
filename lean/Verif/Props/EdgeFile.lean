import Verif.Lemmas.EdgeFileFmt

/-!
# Edge list files (properties C39 and C40)
-/
namespace GraphMat

variable {E : Type}

/-! ### C39: binary files -/

/-- The file of one list, described for the reader. -/
def binDesc (bt : BinType E) (header weights : Bool) (el : EdgeList E) : FileDesc Nat E :=
  let es := el.list.map (seenEdge weights bt.one)
  { c := (if header then encInt el.m ++ encInt el.n ++ encInt (el.nnz : Int) else [])
      ++ el.list.flatMap (writeLineBin bt weights)
    m := if header then el.m else topOf (es.map Edge.src)
    n := if header then el.n else topOf (es.map Edge.dst)
    k := el.nnz
    es := es
    x := none }

theorem binDesc_ok {bt : BinType E} (header weights : Bool) {el : EdgeList E} (hb : ∀ e, e ∈ el.list → bt.Ok e.val)
    (hm : IsInt32 el.m) (hn : IsInt32 el.n) (hk : IsInt32 (el.nnz : Int))
    (he : ∀ e, e ∈ el.list → IsInt32 e.src ∧ IsInt32 e.dst) :
    (binDesc bt header weights el).Ok (binReader bt weights) header := by
  have ht := binTrace weights el.list hb he
  unfold FileDesc.Ok binDesc
  cases header with
  | true =>
    simp only [if_true]
    exact ⟨_, readHeaderBin_ok hm hn hk _, by simp only [List.length_append]; omega, ht⟩
  | false =>
    simp only [Bool.false_eq_true, if_false, List.nil_append]
    refine ⟨ht, trivial, trivial, by simp [EdgeList.list_length]⟩

theorem seenEdge_src (weights : Bool) (one : E) (e : Edge E) : (seenEdge weights one e).src = e.src := by
  cases weights <;> rfl

theorem seenEdge_dst (weights : Bool) (one : E) (e : Edge E) : (seenEdge weights one e).dst = e.dst := by
  cases weights <;> rfl

theorem topOf_flat {α : Type} (l : List α) (f : α → List Int) :
    topOf (l.map (fun a => topOf (f a))) = topOf (l.flatMap f) := by
  symm
  apply le_antisymm
  · refine topOf_le.2 ⟨(topOf_le.1 (le_refl _)).1, ?_⟩
    intro x hx
    obtain ⟨a, ha, hxa⟩ := List.mem_flatMap.1 hx
    exact le_trans ((topOf_le.1 (le_refl _)).2 x hxa) ((topOf_le.1 (le_refl _)).2 _ (List.mem_map.2 ⟨a, ha, rfl⟩))
  · refine topOf_le.2 ⟨(topOf_le.1 (le_refl _)).1, ?_⟩
    intro x hx
    obtain ⟨a, ha, rfl⟩ := List.mem_map.1 hx
    refine topOf_le.2 ⟨(topOf_le.1 (le_refl _)).1, ?_⟩
    intro y hy
    exact (topOf_le.1 (le_refl _)).2 y (List.mem_flatMap.2 ⟨a, ha, hy⟩)

/-- **C39, any number of readers.**  Every rank writes its edge list to its own binary file (`write_edgelist`); then any
number `nrank` of ranks loads the directory with the same flags.  Writing and loading never touch memory outside their
arrays; rank `r` gets exactly the edges of files `r`, `r + nrank`, ... in their order, with weights if weights were
written and weight one otherwise; the dimensions are the largest ones in the headers, or without headers the largest
source and target id. -/
theorem binary_files_load {bt : BinType E} (header weights : Bool) {els : List (EdgeList E)}
    (hb : ∀ el, el ∈ els → ∀ e, e ∈ el.list → bt.Ok e.val)
    (hsz : ∀ el, el ∈ els → el.nnz ≤ el.edges.size)
    (hdim : ∀ el, el ∈ els → IsInt32 el.m ∧ IsInt32 el.n)
    (hids : ∀ el, el ∈ els → ∀ e, e ∈ el.list → IsInt32 e.src ∧ IsInt32 e.dst)
    {nrank : Nat} (hn : 0 < nrank)
    (hshare : ∀ r, r < nrank → ((everyNth nrank r els).flatMap EdgeList.list).length ≤ 2147483647)
    (g : Nat → Nat → Edge E) :
    ∃ fs out, els.mapM (writeBin bt header weights) = some fs ∧
      loadEdgelist (binReader bt weights) header nrank g fs = some out ∧ out.length = nrank ∧
      ∀ r, r < nrank → ∃ el, out[r]? = some el ∧
        el.list = ((everyNth nrank r els).flatMap EdgeList.list).map (seenEdge weights bt.one) ∧
        el.nnz = el.list.length ∧ el.edges.size = el.nnz ∧
        el.m = topOf (if header then els.map EdgeList.m else (els.flatMap EdgeList.list).map Edge.src) ∧
        el.n = topOf (if header then els.map EdgeList.n else (els.flatMap EdgeList.list).map Edge.dst) := by
  have hall : ∀ d : FileDesc Nat E, d.x = none → d.all = d.es := by
    intro d h; simp [FileDesc.all, h]
  have hflat : ∀ l : List (EdgeList E), (l.map (binDesc bt header weights)).flatMap FileDesc.all
      = (l.flatMap EdgeList.list).map (seenEdge weights bt.one) := by
    intro l
    rw [List.flatMap_map, List.map_flatMap]
    congr 1
    funext el
    exact hall _ rfl
  have hlen : ∀ el, el ∈ els → IsInt32 (el.nnz : Int) := by
    intro el hel
    obtain ⟨r, hr, hmem⟩ := exists_everyNth hn hel
    have h1 := hshare r hr
    have : el.list.length ≤ ((everyNth nrank r els).flatMap EdgeList.list).length := by
      obtain ⟨s, t, hst⟩ := List.append_of_mem hmem
      rw [hst]
      simp only [List.flatMap_append, List.flatMap_cons, List.length_append]
      omega
    rw [EdgeList.list_length] at this
    unfold IsInt32
    omega
  have hw : els.mapM (writeBin bt header weights)
      = some ((els.map (binDesc bt header weights)).map FileDesc.c) := by
    rw [List.map_map]
    apply mapM_some
    intro el hel
    exact writeBin_eq (hsz el hel)
  obtain ⟨out, h1, h2, h3⟩ := load_ok (R := binReader bt weights) (header := header) hn
    (ds := els.map (binDesc bt header weights))
    (by
      intro d hd
      obtain ⟨el, hel, rfl⟩ := List.mem_map.1 hd
      refine ⟨binDesc_ok header weights (hb el hel) (hdim el hel).1 (hdim el hel).2 (hlen el hel) (hids el hel), ?_⟩
      rw [hall _ rfl]
      show el.nnz = (el.list.map _).length
      rw [List.length_map, EdgeList.list_length])
    (by
      intro r _ d hd
      rw [everyNth_map] at hd
      obtain ⟨el, _, rfl⟩ := List.mem_map.1 ((List.dropLast_sublist _).subset hd)
      rfl)
    (by
      intro r hr
      rw [everyNth_map, hflat, List.length_map]
      exact hshare r hr) g
  refine ⟨_, out, hw, h1, h2, ?_⟩
  intro r hr
  obtain ⟨el, a1, a2, a3, a4, a5, a6⟩ := h3 r hr
  refine ⟨el, a1, ?_, a3, a4, ?_, ?_⟩
  · rw [a2, everyNth_map, hflat]
  · rw [a5, List.map_map]
    cases header with
    | true => rfl
    | false =>
      simp only [Bool.false_eq_true, if_false]
      rw [List.map_flatMap, ← topOf_flat]
      congr 2
      funext el
      simp [binDesc, List.map_map, Function.comp_def, seenEdge_src]
  · rw [a6, List.map_map]
    cases header with
    | true => rfl
    | false =>
      simp only [Bool.false_eq_true, if_false]
      rw [List.map_flatMap, ← topOf_flat]
      congr 2
      funext el
      simp [binDesc, List.map_map, Function.comp_def, seenEdge_dst]

theorem everyNth_self {α : Type} (l : List α) {r : Nat} (h : r < l.length) : everyNth l.length r l = [l[r]] := by
  unfold everyNth
  obtain ⟨n, hn⟩ : ∃ n, l.length = n + 1 := ⟨l.length - 1, by omega⟩
  rw [hn, List.range_succ_eq_map, List.filterMap_cons]
  simp only [Nat.zero_mul, Nat.add_zero, List.getElem?_eq_getElem h]
  congr 1
  rw [List.filterMap_map]
  apply List.filterMap_eq_nil_iff.2
  intro k _
  simp only [Function.comp]
  rw [List.getElem?_eq_none_iff, hn, Nat.succ_mul]
  omega

theorem topOf_const {α : Type} {l : List α} {f : α → Int} {m : Int} (hne : l ≠ []) (h0 : 0 ≤ m)
    (h : ∀ a, a ∈ l → f a = m) : topOf (l.map f) = m := by
  apply le_antisymm
  · refine topOf_le.2 ⟨h0, ?_⟩
    intro x hx
    obtain ⟨a, ha, rfl⟩ := List.mem_map.1 hx
    exact le_of_eq (h a ha)
  · cases l with
    | nil => exact absurd rfl hne
    | cons a l =>
      have := (topOf_le.1 (le_refl (topOf ((a :: l).map f)))).2 (f a) (by simp)
      rwa [h a (by simp)] at this

/-- **C39 (round trip).**  Every rank writes its edge list of an `m` by `n` matrix to a binary file and the same number
of ranks loads them with the same flags: every rank gets its own edges back, in the same order and (if weights are
written) with the same weights; the dimensions are `m` and `n` with header, the largest source and target id without. -/
theorem binary_round_trip {bt : BinType E} (header weights : Bool) {els : List (EdgeList E)}
    (hb : ∀ el, el ∈ els → ∀ e, e ∈ el.list → bt.Ok e.val)
    (hne : els ≠ []) (hsz : ∀ el, el ∈ els → el.nnz ≤ el.edges.size)
    {m n : Int} (hm : 0 ≤ m ∧ IsInt32 m) (hn : 0 ≤ n ∧ IsInt32 n) (hdim : ∀ el, el ∈ els → el.m = m ∧ el.n = n)
    (hids : ∀ el, el ∈ els → ∀ e, e ∈ el.list → IsInt32 e.src ∧ IsInt32 e.dst)
    (hnnz : ∀ el, el ∈ els → el.nnz ≤ 2147483647) (g : Nat → Nat → Edge E) :
    ∃ fs out, els.mapM (writeBin bt header weights) = some fs ∧
      loadEdgelist (binReader bt weights) header els.length g fs = some out ∧ out.length = els.length ∧
      ∀ (r : Nat) (hr : r < els.length), ∃ el, out[r]? = some el ∧
        el.list = els[r].list.map (seenEdge weights bt.one) ∧ el.nnz = els[r].nnz ∧
        el.m = (if header then m else topOf ((els.flatMap EdgeList.list).map Edge.src)) ∧
        el.n = (if header then n else topOf ((els.flatMap EdgeList.list).map Edge.dst)) := by
  obtain ⟨fs, out, h1, h2, h3, h4⟩ := binary_files_load header weights hb hsz
    (fun el hel => by rw [(hdim el hel).1, (hdim el hel).2]; exact ⟨hm.2, hn.2⟩) hids
    (nrank := els.length) (List.length_pos_iff.2 hne)
    (by
      intro r hr
      rw [everyNth_self els hr]
      simp only [List.flatMap_cons, List.flatMap_nil, List.append_nil]
      rw [EdgeList.list_length]
      exact hnnz _ (List.getElem_mem hr)) g
  refine ⟨fs, out, h1, h2, h3, ?_⟩
  intro r hr
  obtain ⟨el, a1, a2, a3, _, a5, a6⟩ := h4 r hr
  rw [everyNth_self els hr] at a2
  simp only [List.flatMap_cons, List.flatMap_nil, List.append_nil] at a2
  refine ⟨el, a1, a2, ?_, ?_, ?_⟩
  · rw [a3, a2, List.length_map, EdgeList.list_length]
  · rw [a5]
    cases header with
    | true => exact topOf_const hne hm.1 (fun el hel => (hdim el hel).1)
    | false => rfl
  · rw [a6]
    cases header with
    | true => exact topOf_const hne hn.1 (fun el hel => (hdim el hel).2)
    | false => rfl

/-- The same for a type all of whose values can be written. -/
theorem binary_round_trip_all {bt : BinType E} (hb : bt.Good) (header weights : Bool) {els : List (EdgeList E)}
    (hne : els ≠ []) (hsz : ∀ el, el ∈ els → el.nnz ≤ el.edges.size)
    {m n : Int} (hm : 0 ≤ m ∧ IsInt32 m) (hn : 0 ≤ n ∧ IsInt32 n) (hdim : ∀ el, el ∈ els → el.m = m ∧ el.n = n)
    (hids : ∀ el, el ∈ els → ∀ e, e ∈ el.list → IsInt32 e.src ∧ IsInt32 e.dst)
    (hnnz : ∀ el, el ∈ els → el.nnz ≤ 2147483647) (g : Nat → Nat → Edge E) :
    ∃ fs out, els.mapM (writeBin bt header weights) = some fs ∧
      loadEdgelist (binReader bt weights) header els.length g fs = some out ∧ out.length = els.length ∧
      ∀ (r : Nat) (hr : r < els.length), ∃ el, out[r]? = some el ∧
        el.list = els[r].list.map (seenEdge weights bt.one) ∧ el.nnz = els[r].nnz ∧
        el.m = (if header then m else topOf ((els.flatMap EdgeList.list).map Edge.src)) ∧
        el.n = (if header then n else topOf ((els.flatMap EdgeList.list).map Edge.dst)) :=
  binary_round_trip header weights (fun _ _ e _ => hb.ok e.val) hne hsz hm hn hdim hids hnnz g

/-- With weights the edges come back unchanged. -/
theorem seenEdge_weights (one : E) : seenEdge true one = id := by funext e; rfl

/-! #### The hypotheses are met -/

/-- `int` weights in a binary file. -/
def intBin : BinType (BitVec 32) :=
  { size := 4
    enc := fun v => [v.toNat % 256, v.toNat / 256 % 256, v.toNat / 65536 % 256, v.toNat / 16777216 % 256]
    dec := fun l => BitVec.ofNat 32 (l.getD 0 0 + 256 * l.getD 1 0 + 65536 * l.getD 2 0 + 16777216 * l.getD 3 0)
    one := 1 }

theorem intBin_good : intBin.Good where
  len := fun _ => rfl
  dec := by
    intro v
    have h : v.toNat % 256 + 256 * (v.toNat / 256 % 256) + 65536 * (v.toNat / 65536 % 256)
        + 16777216 * (v.toNat / 16777216 % 256) = v.toNat := by
      have := v.isLt
      omega
    show BitVec.ofNat 32 (v.toNat % 256 + 256 * (v.toNat / 256 % 256) + 65536 * (v.toNat / 65536 % 256)
      + 16777216 * (v.toNat / 16777216 % 256)) = v
    rw [h]
    simp

/-- The same with the values of an `int` as integers. -/
def signedBin : BinType Int := { size := 4, enc := encInt, dec := decInt, one := 1 }

theorem signedBin_ok {x : Int} (h : IsInt32 x) : signedBin.Ok x := ⟨rfl, decInt_encInt h⟩

/-- Two ranks, three edges, one of them with the largest id and a self loop. -/
def sampleLists : List (EdgeList (BitVec 32)) :=
  [⟨Arr.ofList ⟨0, 0, 0⟩ [⟨1, 300, 7⟩, ⟨2147483647, 2, 4294967295⟩], 2147483647, 2147483647, 2⟩,
   ⟨Arr.ofList ⟨0, 0, 0⟩ [⟨5, 5, 70000⟩], 2147483647, 2147483647, 1⟩]

example (header weights : Bool) (g : Nat → Nat → Edge (BitVec 32)) :
    ∃ fs out, sampleLists.mapM (writeBin intBin header weights) = some fs ∧
      loadEdgelist (binReader intBin weights) header 2 g fs = some out ∧
      ∃ el, out[1]? = some el ∧ el.list = [⟨5, 5, if weights then 70000 else 1⟩] := by
  obtain ⟨fs, out, h1, h2, _, h4⟩ := binary_round_trip_all intBin_good header weights (els := sampleLists)
    (m := 2147483647) (n := 2147483647) (by decide) (by decide)
    (by unfold IsInt32; decide) (by unfold IsInt32; decide) (by decide) (by unfold IsInt32; decide) (by decide) g
  obtain ⟨el, a1, a2, _⟩ := h4 1 (by decide)
  refine ⟨fs, out, h1, h2, el, a1, ?_⟩
  rw [a2]
  cases weights <;> decide

/-! ### C40: text files -/

/-- The file described for the reader. -/
noncomputable def textDesc (header weights : Bool) (t : TextFile E) : FileDesc Char E :=
  { c := t.chars header weights
    m := if header then t.head.m else topOf (t.counted.map Edge.src)
    n := if header then t.head.n else topOf (t.counted.map Edge.dst)
    k := if header then t.lines.length else t.counted.length
    es := t.counted
    x := t.dangling }

theorem textDesc_ok {tt : TextType E} {wt : E → List Char → Prop} (ht : tt.Reads wt) {header weights : Bool}
    {t : TextFile E} (hg : t.Good wt header weights tt.one) :
    (textDesc header weights t).Ok (textReader tt weights) header := by
  unfold FileDesc.Ok textDesc TextFile.chars
  cases header with
  | true =>
    simp only [if_true]
    have hh := hg.head rfl
    refine ⟨_, readHeaderText_ok hh _, ?_, textFileTrace ht hg hh.term.2⟩
    simp only [TextHead.chars, List.length_append]
    omega
  | false =>
    simp only [Bool.false_eq_true, if_false, List.nil_append]
    refine ⟨?_, trivial, trivial, trivial⟩
    have := textFileTrace ht hg (b := []) (by intro c hc; cases hc)
    rwa [List.nil_append] at this

theorem dangling_of_ended {t : TextFile E} (h : t.Ended) : t.dangling = none := by
  unfold TextFile.dangling; rw [if_pos h]

theorem counted_of_ended {t : TextFile E} (h : t.Ended) : t.counted = t.edges := by
  unfold TextFile.counted; rw [if_pos h]

theorem dangling_of_not_ended {t : TextFile E} (h : ¬ t.Ended) : ∃ e, t.dangling = some e := by
  unfold TextFile.dangling
  rw [if_neg h]
  rcases List.eq_nil_or_concat t.lines with hl | ⟨init, last, hl⟩
  · exact absurd (fun l hm => by rw [hl] at hm; cases hm) h
  · refine ⟨last.edge, ?_⟩
    unfold TextFile.edges
    rw [hl]
    simp

theorem textDesc_all (header weights : Bool) (t : TextFile E) : (textDesc header weights t).all = t.edges :=
  counted_dangling t

theorem textDesc_flat (header weights : Bool) (l : List (TextFile E)) :
    (l.map (textDesc header weights)).flatMap FileDesc.all = l.flatMap TextFile.edges := by
  rw [List.flatMap_map]
  congr 1
  funext t
  exact textDesc_all header weights t

/-- **C40, the part that holds.**  Any number of ranks loads any number of well-formed text files, with or without
header, with or without weights.  If every file ends after its last line (by a newline or other white space) — or, with
header, if at least every file that is not the last one of its reader does so — then rank `r` gets exactly one edge for
each data line of files `r`, `r + nrank`, ..., in order.

Missing from the full property: files without header whose last line is not terminated, and several such files per
reader with header; see `text_unterminated_overflow` and `text_header_edge_lost`. -/
theorem text_files_load_partial {tt : TextType E} {wt : E → List Char → Prop} (ht : tt.Reads wt) (header weights : Bool)
    {ts : List (TextFile E)} (hg : ∀ t, t ∈ ts → t.Good wt header weights tt.one) {nrank : Nat} (hn : 0 < nrank)
    (hend : header = false → ∀ t, t ∈ ts → t.Ended)
    (hlast : ∀ r, r < nrank → ∀ t, t ∈ (everyNth nrank r ts).dropLast → t.Ended)
    (hshare : ∀ r, r < nrank → ((everyNth nrank r ts).flatMap TextFile.edges).length ≤ 2147483647)
    (g : Nat → Nat → Edge E) :
    ∃ out, loadEdgelist (textReader tt weights) header nrank g (ts.map (TextFile.chars header weights)) = some out ∧
      out.length = nrank ∧
      ∀ r, r < nrank → ∃ el, out[r]? = some el ∧
        el.list = (everyNth nrank r ts).flatMap TextFile.edges ∧
        el.nnz = el.list.length ∧ el.edges.size = el.nnz ∧
        el.m = topOf (if header then ts.map (fun t => t.head.m) else (ts.flatMap TextFile.edges).map Edge.src) ∧
        el.n = topOf (if header then ts.map (fun t => t.head.n) else (ts.flatMap TextFile.edges).map Edge.dst) := by
  obtain ⟨out, h1, h2, h3⟩ := load_ok (R := textReader tt weights) (header := header) hn
    (ds := ts.map (textDesc header weights))
    (by
      intro d hd
      obtain ⟨t, htm, rfl⟩ := List.mem_map.1 hd
      refine ⟨textDesc_ok ht (hg t htm), ?_⟩
      rw [textDesc_all]
      unfold textDesc
      cases header with
      | true => simp [TextFile.edges]
      | false => simp [counted_of_ended (hend rfl t htm)])
    (by
      intro r hr d hd
      rw [everyNth_map, ← List.map_dropLast] at hd
      obtain ⟨t, htm, rfl⟩ := List.mem_map.1 hd
      exact dangling_of_ended (hlast r hr t htm))
    (by
      intro r hr
      rw [everyNth_map, textDesc_flat]
      exact hshare r hr) g
  rw [List.map_map] at h1
  refine ⟨out, h1, h2, ?_⟩
  intro r hr
  obtain ⟨el, a1, a2, a3, a4, a5, a6⟩ := h3 r hr
  refine ⟨el, a1, ?_, a3, a4, ?_, ?_⟩
  · rw [a2, everyNth_map, textDesc_flat]
  · rw [a5, List.map_map]
    cases header with
    | true => rfl
    | false =>
      simp only [Bool.false_eq_true, if_false]
      rw [List.map_flatMap, ← topOf_flat]
      congr 1
      apply List.map_congr_left
      intro t htm
      simp [textDesc, counted_of_ended (hend rfl t htm)]
  · rw [a6, List.map_map]
    cases header with
    | true => rfl
    | false =>
      simp only [Bool.false_eq_true, if_false]
      rw [List.map_flatMap, ← topOf_flat]
      congr 1
      apply List.map_congr_left
      intro t htm
      simp [textDesc, counted_of_ended (hend rfl t htm)]

theorem length_es_le {C : Type} (l : List (FileDesc C E)) :
    (l.flatMap FileDesc.es).length ≤ (l.flatMap FileDesc.all).length := by
  induction l with
  | nil => simp
  | cons d l ih =>
    simp only [List.flatMap_cons, List.length_append, FileDesc.all]
    omega

/-- **C40 fails without header.**  For *every* directory of well-formed text files without header: if the last file of some
reader does not end in white space after its last line (and the other files of that reader do), then loading stores the
last edge outside the allocated array.  The first pass does not count that line because `readLine` returns `false` at the
end of the file although it has converted the whole line. -/
theorem text_unterminated_overflow {tt : TextType E} {wt : E → List Char → Prop} (ht : tt.Reads wt) (weights : Bool)
    {ts : List (TextFile E)} (hg : ∀ t, t ∈ ts → t.Good wt false weights tt.one) {nrank : Nat} (hn : 0 < nrank)
    {r : Nat} (hr : r < nrank) {init : List (TextFile E)} {last : TextFile E}
    (hfiles : everyNth nrank r ts = init ++ [last]) (hinit : ∀ t, t ∈ init → t.Ended) (hopen : ¬ last.Ended)
    (hshare : ∀ r, r < nrank → ((everyNth nrank r ts).flatMap TextFile.edges).length ≤ 2147483647)
    (g : Nat → Nat → Edge E) :
    loadEdgelist (textReader tt weights) false nrank g (ts.map (TextFile.chars false weights)) = none := by
  obtain ⟨e, he⟩ := dangling_of_not_ended hopen
  have := load_oob (R := textReader tt weights) hn (ds := ts.map (textDesc false weights))
    (by
      intro d hd
      obtain ⟨t, htm, rfl⟩ := List.mem_map.1 hd
      exact textDesc_ok ht (hg t htm)) hr
    (init := init.map (textDesc false weights)) (d := textDesc false weights last)
    (by rw [everyNth_map, hfiles, List.map_append]; rfl)
    (by
      intro d hd
      obtain ⟨t, htm, rfl⟩ := List.mem_map.1 hd
      exact dangling_of_ended (hinit t htm)) he
    (by
      intro r hr
      refine Nat.le_trans ?_ (hshare r hr)
      rw [everyNth_map, ← textDesc_flat false weights]
      exact length_es_le _) g
  rwa [List.map_map] at this

/-! ### C53: text files round-trip for `int` weights -/

/-- The decimal digits of a number. -/
theorem printDigits_ok : ∀ (fuel n : Nat), n < fuel → ∃ ds : List Nat, ds ≠ [] ∧ (∀ d, d ∈ ds → d < 10) ∧
    printDigits fuel n = ds.map digitChar ∧ digitsValue ds = n := by
  intro fuel
  induction fuel with
  | zero => intro n h; omega
  | succ fuel ih =>
    intro n h
    unfold printDigits
    by_cases hn : n < 10
    · rw [if_pos hn]
      exact ⟨[n], by simp, by simpa using hn, rfl, by simp [digitsValue]⟩
    · rw [if_neg hn]
      obtain ⟨ds, h1, h2, h3, h4⟩ := ih (n / 10) (by omega)
      refine ⟨ds ++ [n % 10], by simp, ?_, ?_, ?_⟩
      · intro d hd
        rcases List.mem_append.1 hd with h | h
        · exact h2 d h
        · rw [List.mem_singleton] at h; omega
      · rw [h3, List.map_append]; rfl
      · unfold digitsValue at h4 ⊢
        rw [List.foldl_append, h4]
        simp only [List.foldl_cons, List.foldl_nil]
        omega

theorem printInt_numeral (x : Int) : IsNumeral x (printInt x) := by
  unfold printInt
  obtain ⟨ds, h1, h2, h3, h4⟩ := printDigits_ok (x.natAbs + 1) x.natAbs (Nat.lt_succ_self _)
  rw [h3]
  by_cases hx : x < 0
  · rw [if_pos hx]
    exact ⟨ds, h1, h2, Or.inr (Or.inr ⟨rfl, by omega⟩)⟩
  · rw [if_neg hx]
    exact ⟨ds, h1, h2, Or.inl ⟨rfl, by omega⟩⟩

/-- The text file of an edge list. -/
def textOf (pr : E → List Char) (bk : E → E) (one : E) (weights : Bool) (el : EdgeList E) : TextFile E :=
  { head := ⟨el.m, el.n, printInt el.m, [' '], printInt el.n, [' '], printInt (el.nnz : Int), ['\n']⟩
    lines := el.list.map (fun e => ⟨seenEdge weights one (backEdge bk e), printInt e.src, [' '], printInt e.dst, [' '], pr e.val,
      ['\n']⟩) }

theorem blanks_one {c : Char} (h : c ∈ whiteChars) : Blanks [c] := by
  intro x hx
  rw [List.mem_singleton] at hx
  rw [hx]; exact h

/-- The texts that denote `int` weights and the conversion `%d` (/repo/include/GMDP/utils/edgelist.h:115-117). -/
def intText : TextType Int := ⟨scanInt, 1⟩

theorem intText_reads : intText.Reads IsNumeral where
  solid := fun _ _ h => h.solid
  scan := fun _ _ _ h hr => scanInt_ok hr h

theorem textOf_good {pr : E → List Char} {bk : E → E} (one : E) {wt : E → List Char → Prop} (header weights : Bool)
    {el : EdgeList E} (hp : weights = true → ∀ e, e ∈ el.list → wt (bk e.val) (pr e.val)) (hm : IsInt32 el.m) (hn : IsInt32 el.n)
    (hk : IsInt32 (el.nnz : Int)) (hids : ∀ e, e ∈ el.list → IsInt32 e.src ∧ IsInt32 e.dst) :
    (textOf pr bk one weights el).Good wt header weights one where
  head := fun _ => by
    have e : (textOf pr bk one weights el).lines.length = el.nnz := by simp [textOf, EdgeList.list_length]
    rw [e]
    exact ⟨⟨printInt_numeral _, hm⟩, ⟨printInt_numeral _, hn⟩, ⟨printInt_numeral _, hk⟩,
      ⟨by simp [textOf], blanks_one (by decide)⟩, ⟨by simp [textOf], blanks_one (by decide)⟩,
      ⟨by simp [textOf], blanks_one (by decide)⟩⟩
  lines := by
    intro l hl
    obtain ⟨e, he, rfl⟩ := List.mem_map.1 hl
    refine ⟨?_, ?_, ⟨by simp, blanks_one (by decide)⟩, fun _ => ⟨by simp, blanks_one (by decide)⟩, ?_, ?_,
      blanks_one (by decide)⟩
    · simp only [seenEdge_src]; exact ⟨printInt_numeral _, (hids e he).1⟩
    · simp only [seenEdge_dst]; exact ⟨printInt_numeral _, (hids e he).2⟩
    · intro h; subst h; exact hp rfl e he
    · intro h; subst h; rfl
  term := by
    intro l hl
    obtain ⟨e, _, rfl⟩ := List.mem_map.1 ((List.dropLast_sublist _).subset hl)
    simp

theorem textOf_ended (pr : E → List Char) (bk : E → E) (one : E) (weights : Bool) (el : EdgeList E) : (textOf pr bk one weights el).Ended := by
  intro l hl
  obtain ⟨e, _, rfl⟩ := List.mem_map.1 hl
  simp

theorem textOf_edges (pr : E → List Char) (bk : E → E) (one : E) (weights : Bool) (el : EdgeList E) :
    (textOf pr bk one weights el).edges = el.list.map (fun e => seenEdge weights one (backEdge bk e)) := by
  simp [textOf, TextFile.edges, Function.comp_def]

theorem writeText_eq (pr : E → List Char) (bk : E → E) (one : E) {header weights : Bool} {el : EdgeList E} (h : el.nnz ≤ el.edges.size) :
    writeText pr header weights el = some ((textOf pr bk one weights el).chars header weights) := by
  have key : ∀ e : Edge E, writeLineText pr weights e = TextLine.chars weights
      (⟨seenEdge weights one (backEdge bk e), printInt e.src, [' '], printInt e.dst, [' '], pr e.val, ['\n']⟩ : TextLine E) := by
    intro e
    cases weights <;> simp [writeLineText, TextLine.chars]
  have hd : (if header then printInt el.m ++ [' '] ++ printInt el.n ++ [' '] ++ printInt (el.nnz : Int) ++ ['\n'] else [])
      = (if header then (textOf pr bk one weights el).head.chars else []) := by
    cases header <;> simp [textOf, TextHead.chars]
  unfold writeText
  simp only []
  rw [hd]
  obtain ⟨s', e1, e2⟩ := forLoop_inv (fun i (out : List Char) => out =
      (if header then (textOf pr bk one weights el).head.chars else [])
        ++ (el.edges.pre i).flatMap (writeLineText pr weights)) (lo := 0) (hi := el.nnz)
    (s := if header then (textOf pr bk one weights el).head.chars else [])
    (body := fun i out => do
      let e ← el.edges.read i
      some (out ++ writeLineText pr weights e)) (Nat.zero_le _) (by simp [Arr.pre_zero]) (by
      intro i out h1 h2 hI
      refine ⟨_, by rw [Arr.read_some (by omega)]; rfl, ?_⟩
      rw [hI, Arr.pre_succ, List.flatMap_append, List.append_assoc]
      simp)
  rw [e1, e2]
  unfold TextFile.chars
  congr 2
  show el.list.flatMap _ = (el.list.map _).flatMap _
  rw [List.flatMap_map]
  congr 1
  funext e
  exact key e

/-- Text files round-trip, with the weights changed by `bk`, if the text `pr` written for a weight is one of the texts `wt`
from which the changed weight is read. -/
theorem text_round_trip_gen {tt : TextType E} {wt : E → List Char → Prop} (ht : tt.Reads wt) {pr : E → List Char}
    {bk : E → E} (header weights : Bool) {els : List (EdgeList E)}
    (hp : weights = true → ∀ el, el ∈ els → ∀ e, e ∈ el.list → wt (bk e.val) (pr e.val)) (hne : els ≠ [])
    (hsz : ∀ el, el ∈ els → el.nnz ≤ el.edges.size)
    {m n : Int} (hm : 0 ≤ m ∧ IsInt32 m) (hn : 0 ≤ n ∧ IsInt32 n) (hdim : ∀ el, el ∈ els → el.m = m ∧ el.n = n)
    (hids : ∀ el, el ∈ els → ∀ e, e ∈ el.list → IsInt32 e.src ∧ IsInt32 e.dst)
    (hnnz : ∀ el, el ∈ els → el.nnz ≤ 2147483647) (g : Nat → Nat → Edge E) :
    ∃ fs out, els.mapM (writeText pr header weights) = some fs ∧
      loadEdgelist (textReader tt weights) header els.length g fs = some out ∧ out.length = els.length ∧
      ∀ (r : Nat) (hr : r < els.length), ∃ el, out[r]? = some el ∧
        el.list = els[r].list.map (fun e => seenEdge weights tt.one (backEdge bk e)) ∧ el.nnz = els[r].nnz ∧
        el.m = (if header then m else topOf ((els.flatMap EdgeList.list).map Edge.src)) ∧
        el.n = (if header then n else topOf ((els.flatMap EdgeList.list).map Edge.dst)) := by
  have hw : els.mapM (writeText pr header weights)
      = some ((els.map (textOf pr bk tt.one weights)).map (TextFile.chars header weights)) := by
    rw [List.map_map]
    apply mapM_some
    intro el hel
    exact writeText_eq pr bk tt.one (hsz el hel)
  have hflat : ∀ l : List (EdgeList E), (l.map (textOf pr bk tt.one weights)).flatMap TextFile.edges
      = (l.flatMap EdgeList.list).map (fun e => seenEdge weights tt.one (backEdge bk e)) := by
    intro l
    rw [List.flatMap_map, List.map_flatMap]
    congr 1
    funext el
    exact textOf_edges pr bk tt.one weights el
  obtain ⟨out, h1, h2, h3⟩ := text_files_load_partial ht header weights (ts := els.map (textOf pr bk tt.one weights))
    (by
      intro t hm'
      obtain ⟨el, hel, rfl⟩ := List.mem_map.1 hm'
      have hd := hdim el hel
      refine textOf_good tt.one header weights (fun hw => hp hw el hel) (by rw [hd.1]; exact hm.2) (by rw [hd.2]; exact hn.2) ?_ (hids el hel)
      have := hnnz el hel
      unfold IsInt32; omega)
    (nrank := els.length) (List.length_pos_iff.2 hne)
    (by
      intro _ t hm'
      obtain ⟨el, _, rfl⟩ := List.mem_map.1 hm'
      exact textOf_ended pr bk tt.one weights el)
    (by
      intro r _ t hm'
      obtain ⟨el, _, rfl⟩ := List.mem_map.1 (mem_everyNth ((List.dropLast_sublist _).subset hm'))
      exact textOf_ended pr bk tt.one weights el)
    (by
      intro r hr
      rw [everyNth_map, everyNth_self els hr, hflat, List.length_map]
      simp only [List.flatMap_cons, List.flatMap_nil, List.append_nil]
      rw [EdgeList.list_length]
      exact hnnz _ (List.getElem_mem hr)) g
  refine ⟨_, out, hw, h1, h2, ?_⟩
  intro r hr
  obtain ⟨el, a1, a2, a3, _, a5, a6⟩ := h3 r hr
  rw [everyNth_map, everyNth_self els hr, hflat] at a2
  simp only [List.flatMap_cons, List.flatMap_nil, List.append_nil] at a2
  refine ⟨el, a1, a2, ?_, ?_, ?_⟩
  · rw [a3, a2, List.length_map, EdgeList.list_length]
  · rw [a5]
    cases header with
    | true =>
      simp only [if_true]
      rw [List.map_map]
      exact topOf_const hne hm.1 (fun el hel => (hdim el hel).1)
    | false =>
      simp only [Bool.false_eq_true, if_false]
      rw [hflat, List.map_map]
      congr 2
      funext e
      exact seenEdge_src _ _ (backEdge bk e)
  · rw [a6]
    cases header with
    | true =>
      simp only [if_true]
      rw [List.map_map]
      exact topOf_const hne hn.1 (fun el hel => (hdim el hel).2)
    | false =>
      simp only [Bool.false_eq_true, if_false]
      rw [hflat, List.map_map]
      congr 2
      funext e
      exact seenEdge_dst _ _ (backEdge bk e)

/-- **C53.**  Every rank writes an edge list with `int` weights as text and the same number of ranks loads the files with
the same flags: every rank gets its edges back in the same order, with the same weights if weights are written. -/
theorem text_round_trip (header weights : Bool) {els : List (EdgeList Int)} (hne : els ≠ [])
    (hsz : ∀ el, el ∈ els → el.nnz ≤ el.edges.size)
    {m n : Int} (hm : 0 ≤ m ∧ IsInt32 m) (hn : 0 ≤ n ∧ IsInt32 n) (hdim : ∀ el, el ∈ els → el.m = m ∧ el.n = n)
    (hids : ∀ el, el ∈ els → ∀ e, e ∈ el.list → IsInt32 e.src ∧ IsInt32 e.dst)
    (hnnz : ∀ el, el ∈ els → el.nnz ≤ 2147483647) (g : Nat → Nat → Edge Int) :
    ∃ fs out, els.mapM (writeText printInt header weights) = some fs ∧
      loadEdgelist (textReader intText weights) header els.length g fs = some out ∧ out.length = els.length ∧
      ∀ (r : Nat) (hr : r < els.length), ∃ el, out[r]? = some el ∧
        el.list = els[r].list.map (seenEdge weights 1) ∧ el.nnz = els[r].nnz ∧
        el.m = (if header then m else topOf ((els.flatMap EdgeList.list).map Edge.src)) ∧
        el.n = (if header then n else topOf ((els.flatMap EdgeList.list).map Edge.dst)) :=
  text_round_trip_gen (bk := id) intText_reads header weights (fun _ _ _ _ _ => printInt_numeral _) hne hsz hm hn hdim hids hnnz g

/-- Two lists, negative and large weights: the hypotheses hold. -/
example (header weights : Bool) (g : Nat → Nat → Edge Int) :
    ∃ fs out el, ([⟨Arr.ofList ⟨0, 0, 0⟩ [⟨1, 300, -7⟩, ⟨12, 2, 2147483647⟩], 300, 300, 2⟩,
        ⟨Arr.ofList ⟨0, 0, 0⟩ [⟨5, 5, 0⟩], 300, 300, 1⟩] : List (EdgeList Int)).mapM (writeText printInt header weights) = some fs ∧
      loadEdgelist (textReader intText weights) header 2 g fs = some out ∧ out[0]? = some el ∧
      el.list = [⟨1, 300, if weights then -7 else 1⟩, ⟨12, 2, if weights then 2147483647 else 1⟩] := by
  obtain ⟨fs, out, h1, h2, _, h4⟩ := text_round_trip header weights
    (els := [⟨Arr.ofList ⟨0, 0, 0⟩ [⟨1, 300, -7⟩, ⟨12, 2, 2147483647⟩], 300, 300, 2⟩,
        ⟨Arr.ofList ⟨0, 0, 0⟩ [⟨5, 5, 0⟩], 300, 300, 1⟩])
    (m := 300) (n := 300) (by simp) (by decide)
    (by unfold IsInt32; decide) (by unfold IsInt32; decide) (by decide) (by unfold IsInt32; decide) (by decide) g
  obtain ⟨el, a1, a2, _⟩ := h4 0 (by decide)
  refine ⟨fs, out, el, h1, h2, a1, ?_⟩
  rw [a2]
  cases weights <;> decide

/-! #### Samples of text files -/

/-- Line `12 3 -4`. -/
def sampleLine (term : List Char) : TextLine Int :=
  ⟨⟨12, 3, -4⟩, ['1', '2'], [' '], ['3'], [' ', '\t'], ['-', '4'], term⟩

/-- Line `5 06 7`. -/
def sampleLine' (term : List Char) : TextLine Int :=
  ⟨⟨5, 6, 7⟩, ['5'], [' '], ['0', '6'], [' '], ['+', '7'], term⟩

/-- Header line `20 30 2`. -/
def sampleHead : TextHead := ⟨20, 30, ['2', '0'], [' '], ['3', '0'], [' '], ['2'], ['\n']⟩

/-- The file of both lines. -/
def sampleText (term : List Char) : TextFile Int :=
  ⟨sampleHead, [sampleLine ['\r', '\n'], sampleLine' term]⟩

theorem numeral_of (x : Int) (l : List Char) (ds : List Nat) (h1 : ds ≠ []) (h2 : ∀ d, d ∈ ds → d < 10)
    (h : (l = ds.map digitChar ∧ x = (digitsValue ds : Int)) ∨ (l = '+' :: ds.map digitChar ∧ x = (digitsValue ds : Int)) ∨
     (l = '-' :: ds.map digitChar ∧ x = -(digitsValue ds : Int))) : IsNumeral x l := ⟨ds, h1, h2, h⟩

theorem sampleHead_good : sampleHead.Good 2 where
  m := ⟨numeral_of _ _ [2, 0] (by decide) (by decide) (by decide), by unfold IsInt32; decide⟩
  n := ⟨numeral_of _ _ [3, 0] (by decide) (by decide) (by decide), by unfold IsInt32; decide⟩
  k := ⟨numeral_of _ _ [2] (by decide) (by decide) (by decide), by unfold IsInt32; decide⟩
  sep := ⟨by decide, by unfold Blanks; decide⟩
  sep' := ⟨by decide, by unfold Blanks; decide⟩
  term := ⟨by decide, by unfold Blanks; decide⟩

theorem sampleText_good (header : Bool) {term : List Char} (ht : Blanks term) :
    (sampleText term).Good IsNumeral header true 1 where
  head := fun _ => sampleHead_good
  lines := by
    intro l hl
    rcases List.mem_cons.1 hl with rfl | hl
    · constructor
      · exact ⟨numeral_of _ _ [1, 2] (by decide) (by decide) (by decide), by unfold IsInt32; decide⟩
      · exact ⟨numeral_of _ _ [3] (by decide) (by decide) (by decide), by unfold IsInt32; decide⟩
      · exact ⟨by decide, by show Blanks [' ']; unfold Blanks; decide⟩
      · exact fun _ => ⟨by decide, by show Blanks [' ', '\t']; unfold Blanks; decide⟩
      · exact fun _ => numeral_of _ _ [4] (by decide) (by decide) (by decide)
      · exact fun h => nomatch h
      · show Blanks ['\r', '\n']; unfold Blanks; decide
    · rw [List.mem_singleton] at hl
      subst hl
      constructor
      · exact ⟨numeral_of _ _ [5] (by decide) (by decide) (Or.inl ⟨rfl, rfl⟩), by
          show IsInt32 5
          unfold IsInt32; decide⟩
      · exact ⟨numeral_of _ _ [0, 6] (by decide) (by decide) (Or.inl ⟨rfl, rfl⟩), by
          show IsInt32 6
          unfold IsInt32; decide⟩
      · exact ⟨by simp [sampleLine'], by show Blanks [' ']; unfold Blanks; decide⟩
      · exact fun _ => ⟨by simp [sampleLine'], by show Blanks [' ']; unfold Blanks; decide⟩
      · exact fun _ => numeral_of _ _ [7] (by decide) (by decide) (Or.inr (Or.inl ⟨rfl, rfl⟩))
      · exact fun h => nomatch h
      · exact ht
  term := by
    intro l hl
    have : l = sampleLine ['\r', '\n'] := by simpa [sampleText] using hl
    rw [this]
    decide

/-- With a final newline both lines are loaded, with and without header. -/
example (header : Bool) (g : Nat → Nat → Edge Int) :
    ∃ out el, loadEdgelist (textReader intText true) header 1 g [(sampleText ['\n']).chars header true] = some out ∧
      out[0]? = some el ∧ el.list = [⟨12, 3, -4⟩, ⟨5, 6, 7⟩] := by
  have hends : (sampleText ['\n']).Ended := by
    intro l hl
    rcases List.mem_cons.1 hl with rfl | hl
    · decide
    · rw [List.mem_singleton] at hl; subst hl; decide
  obtain ⟨out, h1, _, h3⟩ := text_files_load_partial intText_reads header true (ts := [sampleText ['\n']])
    (by
      intro t ht
      rw [List.mem_singleton] at ht; subst ht
      exact sampleText_good header (by unfold Blanks; decide))
    (nrank := 1) (by decide)
    (by
      intro _ t ht
      rw [List.mem_singleton] at ht; subst ht
      exact hends)
    (by
      intro r hr t ht
      obtain rfl : r = 0 := by omega
      cases ht)
    (by
      intro r hr
      obtain rfl : r = 0 := by omega
      decide) g
  obtain ⟨el, a1, a2, _⟩ := h3 0 (by decide)
  exact ⟨out, el, h1, a1, by rw [a2]; rfl⟩

/-- Without final newline and without header the same file makes the loader store outside its array. -/
theorem text_unterminated_sample (g : Nat → Nat → Edge Int) :
    loadEdgelist (textReader intText true) false 1 g [(sampleText []).chars false true] = none := by
  refine text_unterminated_overflow intText_reads true (ts := [sampleText []])
    (by
      intro t ht
      rw [List.mem_singleton] at ht; subst ht
      exact sampleText_good false (by intro c hc; cases hc))
    (nrank := 1) (by decide) (r := 0) (by decide) (init := []) (last := sampleText []) rfl
    (by intro t ht; cases ht)
    (by intro h; exact h (sampleLine' []) (by simp [sampleText]) rfl)
    (by
      intro r hr
      obtain rfl : r = 0 := by omega
      decide) g

/-- With header, two files for one reader, the first without final newline: its last edge is overwritten by the next file
and the last slot of the array stays uninitialised (`g 0 3`). -/
theorem text_header_edge_lost (g : Nat → Nat → Edge Int) :
    (loadEdgelist (textReader intText true) true 1 g
        [(sampleText []).chars true true, (sampleText ['\n']).chars true true]).map (List.map EdgeList.list)
      = some [[⟨12, 3, -4⟩, ⟨12, 3, -4⟩, ⟨5, 6, 7⟩, g 0 3]] := by
  rfl

end GraphMat
