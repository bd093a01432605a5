import Verif.Lemmas.FmtCoo3
import Verif.Props.Formats

/-!
# C44: multiplication with vertex properties

Only DCSC and COO tiles have `mult_segment3`.
-/
namespace GraphMat

variable {E T U V : Type}

theorem reduces_products3 {m n rs cs : Nat} {edges : List (Edge E)} (hin : EdgesIn m n rs cs edges)
    {l : List (Nat × Nat × E)} (hl : l.Perm (edges.map (localOf rs cs))) (xm : Nat → Option T) (pm : E → T → V → U)
    (vm : Nat → V) (add : U → U → U) (y : Option U) (i : Nat) :
    Reduces add (y.toList ++ rowProducts rs cs xm (fun e x => pm e x (vm i)) edges i)
      (accum add y (contrib xm (fun row e x => pm e x (vm row)) l i)) := by
  have h : contrib xm (fun row e x => pm e x (vm row)) l i = contrib xm (fun _ e x => pm e x (vm i)) l i := by
    unfold contrib
    apply List.filterMap_congr
    intro e _
    by_cases he : e.1 = i
    · subst he; rfl
    · rw [if_neg he]
  rw [h]
  exact reduces_products hin hl _ _ _ _ _

/-- **DCSC tiles, with vertex properties** (C44). -/
theorem dcsc_mult3_correct (g : TileFresh E) {threads : Nat} (ht : 0 < threads)
    {sort : List (TEdge E) → List (TEdge E)} (hsort : SortsBy compareDcsc sort)
    {edges : List (Edge E)} {m n rs cs : Nat} (hin : EdgesIn m n rs cs edges)
    {mul : E → T → V → U → U} {pm : E → T → V → U} (hm : ∀ e x v old, mul e x v old = pm e x v) (add : U → U → U) :
    ∃ t, Tile.build g threads sort edges m n rs cs = some t ∧
      ∀ gy tmp, MultipliesBy3 m n rs cs edges pm add (multSegment3 gy tmp mul add t) := by
  obtain ⟨t, P, h1, h2, h3, h4, _, h6⟩ := Tile.build_spec g ht hsort hin
  refine ⟨t, h1, ?_⟩
  intro gy tmp sx sv sy hx rx hv rv hy cx cv cy vm hvm
  obtain ⟨sy', s1, s2, s3, s4, _, _, s7⟩ := multSegment3_spec h2 hx rx hv rv hy (by rw [cx, h4]) (by rw [cv, h3])
    (by rw [cy, h3]) (vm := vm) (fun i hi => hvm i (by omega)) gy tmp hm add
  refine ⟨sy', s1, s2, s3, by rw [s4, cy], ?_⟩
  intro i
  rw [s7]
  exact reduces_products3 hin h6 _ _ _ _ _ _

/-- **COO tiles, with vertex properties** (C44), where the memory behind `ia` is readable and, if the tile has only one
edge, holds a positive number, for tiles with edges.  Missing for the full property: that read (`coo_reads_behind`), and tiles
without edges (`coo_mult3_empty_fails`). -/
theorem coo_mult3_correct_partial (behind : Int) (g : FmtFresh E) {threads : Nat} (ht : 0 < threads)
    {sort : List (Edge E) → List (Edge E)} (hsort : SortsBy compareSrcDst sort)
    {edges : List (Edge E)} {m n rs cs : Nat} (hin : EdgesIn m n rs cs edges) (hne : edges ≠ [])
    (hb : edges.length = 1 → 1 ≤ behind)
    {mul : E → T → V → U → U} {pm : E → T → V → U} (hm : ∀ e x v old, mul e x v old = pm e x v) (add : U → U → U) :
    ∃ t, COO.build (some behind) g threads sort edges m n rs cs = some t ∧
      ∀ gy old, MultipliesBy3 m n rs cs edges pm add (t.mult3 gy old mul add) := by
  obtain ⟨t, l, h1, h2, h3⟩ := COO.build_holds g ht hsort hin hb
  refine ⟨t, h1, ?_⟩
  intro gy old sx sv sy hx rx hv rv hy cx cv cy vm hvm
  have hn : 0 < t.nnz := by
    rw [h2.2.2.1, h3.length_eq, List.length_map]
    exact List.length_pos_iff.mpr hne
  obtain ⟨sy', s1, s2, s3, s4, s5⟩ := COO.mult3_spec h2 hn hx rx hv rv hy cx cv cy hvm gy old hm add
  refine ⟨sy', s1, s2, s3, s4, ?_⟩
  intro i
  rw [s5]
  exact reduces_products hin h3 _ _ _ _ _

/-- **C44 fails for COO tiles without edges, with vertex properties**: the multiplication uses the number of partitions, which
was never set.  DCSC tiles without edges are multiplied correctly (`dcsc_mult3_correct`). -/
theorem coo_mult3_empty_fails (behind : Option Int) (gt : FmtFresh E) (threads : Nat) (sort : List (Edge E) → List (Edge E))
    (m n rs cs : Nat) (g : Fresh U) (old : Nat → U) (mul : E → T → V → U → U) (add : U → U → U) (sx : Segment T)
    (sv : Segment V) (sy : Segment U) :
    ∃ t, COO.build behind gt threads sort [] m n rs cs = some t ∧ t.mult3 g old mul add sx sv sy = none := by
  refine ⟨COO.empty gt m n, rfl, ?_⟩
  unfold COO.mult3 multWith COO.empty
  simp only [Option.bind_eq_bind]
  cases (sy.alloc g).initialize with
  | none => rfl
  | some s =>
    rw [Option.bind_some]
    cases s.props with
    | none => rfl
    | some b => rfl

/-! ### Concrete cases -/

/-- The vertex properties for the examples: 2, and 5 in the first row. -/
def fmtV (m : Nat) : Option (Segment Nat) := do
  let s ← (Segment.new m).setAll (.sample 3) 2
  s.set (.sample 3) 1 5

/-- Multiply by an empty segment, adding, and show the rows. -/
def fmtRows3 (m n : Nat) (mult : Segment Nat → Segment Nat → Segment Nat → Option (Segment Nat)) (rows : List Nat) :
    Option (List (Option Nat)) := do
  let sx ← fmtX n
  let sv ← fmtV m
  let r ← mult sx sv (Segment.new m)
  some (rows.map r.view)

/-- Segments that meet the hypotheses of `MultipliesBy3`. -/
theorem fmtV_ready : ∃ sv, fmtV 40 = some sv ∧ sv.WF ∧ sv.Ready ∧ sv.capacity = 40 ∧
    ∀ i, i < 40 → sv.view i = some (if i = 0 then 5 else 2) := by
  obtain ⟨s, h1, h2, _, h3, _, _, h9⟩ := Segment.setAll_spec (Segment.new_WF (α := Nat) 40) (.sample 3) 2
  obtain ⟨s', h4, h5, h6, h7, _, _, h8⟩ := Segment.set_spec h2 (.sample 3) (idx := 1) (by omega) (by rw [h3]; decide) 5
  refine ⟨s', ?_, h5, h6, by rw [h7, h3]; rfl, ?_⟩
  · unfold fmtV
    rw [h1]
    exact h4
  · intro i hi
    rw [h8, h9]
    show (if i = 0 then some 5 else if i < 40 then some 2 else none) = _
    rw [if_pos hi]
    split <;> rfl

/-- The hypotheses of the theorems hold for this tile, and the rows come out right. -/
example : ∃ (sx sv : Segment Nat) (t : Tile Nat) (u : COO Nat), fmtX 17 = some sx ∧ fmtV 40 = some sv ∧
    Tile.build ⟨fun _ => 4, fun _ _ => 4⟩ 2 (insSort compareDcsc) fmtEdges 40 17 10 20 = some t ∧
    COO.build (some 0) fmtFresh 2 (insSort compareSrcDst) fmtEdges 40 17 10 20 = some u ∧
    (∃ y, multSegment3 (.sample 3) (fun _ _ => 3) (fun e x v _ => e * x + v) (· + ·) t sx sv (Segment.new 40) = some y ∧
      Reduces (· + ·) (rowProducts 10 20 sx.view (fun e x => e * x + 5) fmtEdges 0) (y.view 0)) ∧
    ∃ y, u.mult3 (.sample 3) (fun _ => 3) (fun e x v _ => e * x + v) (· + ·) sx sv (Segment.new 40) = some y ∧
      Reduces (· + ·) (rowProducts 10 20 sx.view (fun e x => e * x + 5) fmtEdges 0) (y.view 0) := by
  obtain ⟨sx, h1, h2, h3, h4⟩ := fmtX_ready
  obtain ⟨sv, v1, v2, v3, v4, v5⟩ := fmtV_ready
  obtain ⟨t, t1, t2⟩ := dcsc_mult3_correct (T := Nat) (V := Nat) (U := Nat) ⟨fun _ => 4, fun _ _ => 4⟩ (threads := 2)
    (by decide) insSort_dcsc fmtEdges_in (mul := fun e x v _ => e * x + v) (fun _ _ _ _ => rfl) (· + ·)
  obtain ⟨u, u1, u2⟩ := coo_mult3_correct_partial (T := Nat) (V := Nat) (U := Nat) 0 fmtFresh (threads := 2) (by decide)
    insSort_srcDst fmtEdges_in (by decide) (fun h => absurd h (by decide))
    (mul := fun e x v _ => e * x + v) (fun _ _ _ _ => rfl) (· + ·)
  obtain ⟨y, y1, _, _, _, y2⟩ := t2 (.sample 3) (fun _ _ => 3) sx sv (Segment.new 40) h2 h3 v2 v3 (Segment.new_WF 40) h4 v4 rfl
    _ v5
  obtain ⟨z, z1, _, _, _, z2⟩ := u2 (.sample 3) (fun _ => 3) sx sv (Segment.new 40) h2 h3 v2 v3 (Segment.new_WF 40) h4 v4 rfl
    _ v5
  exact ⟨sx, sv, t, u, h1, v1, t1, u1, ⟨y, y1, y2 0⟩, ⟨z, z1, z2 0⟩⟩

/-- The product of both formats. -/
example : (do
    let t ← COO.build (some 0) fmtFresh 1 (insSort compareSrcDst) fmtEdges 40 17 10 20
    fmtRows3 40 17 (t.mult3 (.sample 3) (fun _ => 3) (fun e x v _ => e * x + v) (· + ·)) [0, 1, 2, 39]) =
    some [some 410, some 153, none, some 102] := by decide +kernel

example : (do
    let t ← Tile.build ⟨fun _ => 4, fun _ _ => 4⟩ 1 (insSort compareDcsc) fmtEdges 40 17 10 20
    fmtRows3 40 17 (multSegment3 (.sample 3) (fun _ _ => 3) (fun e x v _ => e * x + v) (· + ·) t) [0, 1, 2, 39]) =
    some [some 410, some 153, none, some 102] := by decide +kernel

/-- A vertex without property ends the program (the assertion): every row with an edge needs one. -/
example : (do
    let t ← COO.build (some 0) fmtFresh 1 (insSort compareSrcDst) fmtEdges 40 17 10 20
    let sx ← fmtX 17
    let sv ← fmtV 40
    let sv ← sv.unset (.sample 3) 2
    t.mult3 (.sample 3) (fun _ => 3) (fun e x v _ => e * x + v) (· + ·) sx sv (Segment.new 40)).isNone = true := by
  decide +kernel

end GraphMat
