import Verif.Lemmas.AnyVec
import Verif.Lemmas.TestIO
import Verif.Model.MulHistory
import Verif.Props.VecSnapshot
import Verif.Spec.Samples

/-!
# Programs that multiply a matrix with vectors of any history (C83)
-/
namespace GraphMat

variable {E T U V α : Type}

/-! ### New vectors -/

theorem DVec.new_empty {n nseg nrank : Nat} (hs : 0 < nseg) (hr : 0 < nrank) :
    ∃ d : DVec α, DVec.new n nseg nrank = some d ∧ d.WF n nseg nrank ∧ d.Quiet nseg nrank ∧
      ∀ w, 1 ≤ w → w ≤ n → d.sem n nseg nrank w = none := by
  obtain ⟨d, a1, a2, a3⟩ := DVec.new_spec (α := α) n nseg nrank hs
  refine ⟨d, a1, a2, ⟨?_, ?_⟩, ?_⟩
  · intro p hp
    unfold DVec.own
    rw [a3 _ _ (Nat.mod_lt _ hr) hp]
    rfl
  · intro r p hrr hp _ i
    unfold DVec.cell
    simp only
    rw [a3 r p hrr hp, Segment.new_view]
  · intro w h1 h2
    obtain ⟨p, hp, hlt, _⟩ := locate hs h1 h2
    rw [DVec.sem_of hp]
    unfold DVec.own
    rw [a3 _ _ (Nat.mod_lt _ hr) hlt, Segment.new_view]

/-- A segment that holds an entry has a buffer in use. -/
theorem DVec.own_ready {n nseg nrank : Nat} {d : DVec α} {w p : Nat} (hp : getPartition n nseg w = some p)
    (h : (d.sem n nseg nrank w).isSome) : (d.own nrank p).Ready := by
  rw [DVec.sem_of hp] at h
  obtain ⟨x, hx⟩ := Option.isSome_iff_exists.mp h
  exact Segment.view_ready hx

/-! ### One call -/

theorem matProducts_congr {n : Nat} {x x' : Nat → Option T} {pm : E → T → U} {es : List (Edge E)} {w m : Nat}
    (hin : ∀ e ∈ es, InMat m n e) (h : ∀ w, 1 ≤ w → w ≤ n → x' w = x w) :
    matProducts x' pm es w = matProducts x pm es w := by
  unfold matProducts
  apply List.filterMap_congr
  intro e he
  obtain ⟨_, _, h3, h4⟩ := hin e he
  rw [h e.dst.toNat (by omega) (by omega)]

/-- The two vectors hold the two maps, and no foreign copy of the second has values. -/
structure MulRel (m n ntx nty nrank : Nat) (x : DVec T) (y : DVec U) (X : Nat → Option T) (Y : Nat → Option U) : Prop where
  wx : x.WF n ntx nrank
  wy : y.WF m nty nrank
  quiet : y.Quiet nty nrank
  sx : ∀ w, 1 ≤ w → w ≤ n → x.sem n ntx nrank w = X w
  sy : ∀ w, 1 ≤ w → w ≤ m → y.sem m nty nrank w = Y w

/-- One call on vectors that hold the maps `X` and `Y`. -/
theorem MulOp.exec_spec {D : DMat E} {m n ntx nty nrank : Nat} {ow : Nat → Nat → Nat} {T' : Nat → Nat → Tile E}
    {P : Nat → Nat → Nat → List (Col E)} {all : List (Edge E)} (h : D.Rep m n ntx nty nrank ow T' P all)
    (hin : ∀ e ∈ all, InMat m n e) (hy0 : 0 < nty) (hx0 : 0 < ntx) (hr : 0 < nrank) (how : ∀ i j, ow i j < nrank)
    {threads : Nat} (hth : 0 < threads) (env : MulEnv T U V) (gx : Nat → Nat → Fresh T) (gy : Nat → Nat → Fresh U)
    {mul : Nat → Nat → Nat → Nat → E → T → U → U} {pm : E → T → U} (hm : ∀ i j p nz e x old, mul i j p nz e x old = pm e x)
    (add : U → U → U) (op : MulOp T U) (hop : op.Valid m n) {x : DVec T} {y : DVec U} {X : Nat → Option T} {Y : Nat → Option U}
    (hs : MulRel m n ntx nty nrank x y X Y)
    (hb : (op = .mul) → ∀ p, p < ntx → (∃ i, i < nty ∧ ow i p ≠ p % nrank) ∨
      ∃ w, 1 ≤ w ∧ w ≤ n ∧ getPartition n ntx w = some p ∧ (X w).isSome) :
    ∃ x' y' Y', op.exec env gx gy threads nrank D mul add (x, y) = some (x', y') ∧
      MulRel m n ntx nty nrank x' y' (op.xSpec X) Y' ∧ op.Step m n all pm add X Y (op.xSpec X) Y' := by
  cases op with
  | onX o =>
    obtain ⟨x', a1, a2, a3⟩ := VecOp.exec_spec hx0 hr gx o hop hs.wx hs.sx
    refine ⟨x', y, Y, ?_, ⟨a2, hs.wy, hs.quiet, a3, hs.sy⟩, fun _ _ _ => rfl, fun _ _ _ => rfl⟩
    show (o.exec gx x).map _ = _
    rw [a1]
    rfl
  | onY o =>
    obtain ⟨y', a1, a2, a3⟩ := VecOp.exec_spec hy0 hr gy o hop hs.wy hs.sy
    refine ⟨x, y', o.spec Y, ?_, ⟨hs.wx, a2, VecOp.exec_quiet hs.wy hr a1 hs.quiet, hs.sx, a3⟩,
      fun _ _ _ => rfl, fun _ _ _ => rfl⟩
    show (o.exec gy y).map _ = _
    rw [a1]
    rfl
  | mul =>
    obtain ⟨x', y', a1, a2, _, a4, a5, _, a7, a8, _⟩ := DMat.spmspv_shared h hy0 hx0 hr how hth env hm add hs.wx (by
      intro p hp
      rcases hb rfl p hp with e | ⟨w, h1, h2, hw, hX⟩
      · exact .inr e
      · rw [← hs.sx w h1 h2] at hX
        exact .inl (DVec.own_ready hw hX)) hs.wy hs.quiet
    refine ⟨x', y', fun w => y'.sem m nty nrank w, a1, ⟨a2, a5, a7, ?_, fun _ _ _ => rfl⟩, fun _ _ _ => rfl, ?_⟩
    · intro w h1 h2
      rw [a4 w, hs.sx w h1 h2]
      rfl
    · intro w h1 h2
      have hred : Reduces add (y.sem m nty nrank w).toList (y.sem m nty nrank w) := by
        cases e : y.sem m nty nrank w with
        | none => exact .inl ⟨rfl, rfl⟩
        | some u => exact .inr ⟨.leaf u, List.Perm.refl _, rfl⟩
      have := a8 w h1 h2 _ hred
      rw [hs.sy w h1 h2] at this
      have e : incoming (x.sem n ntx nrank) (fun _ => pm) all w = matProducts X pm all w :=
        matProducts_congr hin hs.sx
      rw [e] at this
      exact this

/-- What can be read from a vector that holds a map. -/
theorem DVec.reads {n nseg nrank : Nat} (hs : 0 < nseg) (hr : 0 < nrank) {d : DVec α} (hd : d.WF n nseg nrank)
    {M : Nat → Option α} (hM : ∀ w, 1 ≤ w → w ≤ n → d.sem n nseg nrank w = M w) :
    d.getNNZ = some ((List.range n).countP (fun j => (M (j + 1)).isSome)) ∧
    ∀ w v, 1 ≤ w → w ≤ n → M w = some v →
      ∃ p, getPartition n nseg w = some p ∧ (d.get (p % nrank)).get w = some (some v) := by
  refine ⟨?_, ?_⟩
  · rw [DVec.getNNZ_spec hd hs hr]
    congr 1
    apply List.countP_congr
    intro j hj
    have := List.mem_range.mp hj
    rw [hM (j + 1) (by omega) (by omega)]
  · intro w v h1 h2 hv
    obtain ⟨p, hp, hlt, _⟩ := locate hs h1 h2
    refine ⟨p, hp, ?_⟩
    have hsem := hM w h1 h2
    rw [DVec.sem_of hp, hv] at hsem
    exact (SpVec.get_spec (hd.rank _ (Nat.mod_lt _ hr)) hr hp).2 rfl v hsem

/-! ### Programs -/

/-- At every multiplication each segment of `x` is needed by a rank that does not own it, or holds an entry. -/
def Warm (n ntx nty nrank : Nat) (ow : Nat → Nat → Nat) (ops : List (MulOp T U)) (X : Nat → Option T) : Prop :=
  ∀ pre post, ops = pre ++ .mul :: post → ∀ p, p < ntx → (∃ i, i < nty ∧ ow i p ≠ p % nrank) ∨
    ∃ w, 1 ≤ w ∧ w ≤ n ∧ getPartition n ntx w = some p ∧ (xMap pre X w).isSome

theorem runMul_spec {D : DMat E} {m n ntx nty nrank : Nat} {ow : Nat → Nat → Nat} {T' : Nat → Nat → Tile E}
    {P : Nat → Nat → Nat → List (Col E)} {all : List (Edge E)} (h : D.Rep m n ntx nty nrank ow T' P all)
    (hin : ∀ e ∈ all, InMat m n e) (hy0 : 0 < nty) (hx0 : 0 < ntx) (hr : 0 < nrank) (how : ∀ i j, ow i j < nrank)
    {threads : Nat} (hth : 0 < threads) (env : Nat → MulEnv T U V) (gx : Nat → Nat → Nat → Fresh T)
    (gy : Nat → Nat → Nat → Fresh U)
    {mul : Nat → Nat → Nat → Nat → E → T → U → U} {pm : E → T → U} (hm : ∀ i j p nz e x old, mul i j p nz e x old = pm e x)
    (add : U → U → U) :
    ∀ (ops : List (MulOp T U)) (_ : ∀ op ∈ ops, op.Valid m n) (k : Nat) {x : DVec T} {y : DVec U} {X : Nat → Option T}
      {Y : Nat → Option U} (_ : Warm n ntx nty nrank ow ops X) (_ : MulRel m n ntx nty nrank x y X Y),
    ∃ x' y' Y', runMul env gx gy threads nrank D mul add k ops (x, y) = some (x', y') ∧
      MulRel m n ntx nty nrank x' y' (xMap ops X) Y' ∧ MulSteps m n all pm add ops X Y (xMap ops X) Y' := by
  intro ops
  induction ops with
  | nil =>
    intro _ k x y X Y _ hs
    exact ⟨x, y, Y, rfl, hs, .nil (fun _ _ _ => rfl) (fun _ _ _ => rfl)⟩
  | cons op ops ih =>
    intro hops k x y X Y hw hs
    obtain ⟨x1, y1, Y1, a1, a2, a3⟩ := MulOp.exec_spec h hin hy0 hx0 hr how hth (env k) (gx k) (gy k) hm add op
      (hops op List.mem_cons_self) hs (by
        rintro rfl
        exact hw [] ops rfl)
    obtain ⟨x', y', Y', b1, b2, b3⟩ := ih (fun o ho => hops o (List.mem_cons_of_mem _ ho)) (k + 1) (by
      rintro pre post rfl
      exact hw (op :: pre) post rfl) a2
    refine ⟨x', y', Y', ?_, b2, .cons a3 b3⟩
    unfold runMul
    rw [a1]
    exact b1

/-- C83, as far as it holds: a program builds a matrix (any size, any tiling, any placement of the tiles on any number of
ranks) and two new vectors, and makes any sequence of `set`, `unset`, `setAll`, `Clear` on the vectors and `SpMSpV`.  It does
not fail, and the vectors read (`getNNZ`, `get`) as the specification allows, whatever memory holds.  Missing: multiplications
where a segment of `x` holds no entry and no other rank has a tile in its column (`Warm`); there the code dereferences a null
pointer or uses values that are not in the vector any more (`multiply_program_false`). -/
theorem multiply_program_partial {m n ntx nty nrank : Nat} {pfn : Nat → Nat → Nat → Option Nat} {ow : Nat → Nat → Nat}
    {srt : Sorts E} (hsrt : srt.OK) (g : Nat → Nat → Nat → TileFresh E) {threads : Nat} (hth : 0 < threads)
    (hy0 : 0 < nty) (hx0 : 0 < ntx) (hr : 0 < nrank) (hpfn : ∀ i j, pfn j i nrank = some (ow i j))
    (how : ∀ i j, ow i j < nrank)
    {blobs : List (List (Edge E))} (hlen : blobs.length = nrank) (hin : ∀ e ∈ blobs.flatten, InMat m n e)
    (env : Nat → MulEnv T U V) (gx : Nat → Nat → Nat → Fresh T) (gy : Nat → Nat → Nat → Fresh U)
    (pm : E → T → U) (add : U → U → U) (ops : List (MulOp T U)) (hops : ∀ op ∈ ops, op.Valid m n)
    (hwarm : Warm n ntx nty nrank ow ops (fun _ => none)) :
    ∃ out D x0 y0 x y, DMat.ofEdges m n ntx nty nrank pfn srt g threads blobs = some (out, D) ∧
      DVec.new n ntx nrank = some x0 ∧ DVec.new m nty nrank = some y0 ∧
      runMul env gx gy threads nrank D (fun _ _ _ _ e x _ => pm e x) add 0 ops (x0, y0) = some (x, y) ∧
      ∃ X Y, MulSteps m n blobs.flatten pm add ops (fun _ => none) (fun _ => none) X Y ∧
        x.getNNZ = some ((List.range n).countP (fun j => (X (j + 1)).isSome)) ∧
        y.getNNZ = some ((List.range m).countP (fun j => (Y (j + 1)).isSome)) ∧
        (∀ w t, 1 ≤ w → w ≤ n → X w = some t →
          ∃ p, getPartition n ntx w = some p ∧ (x.get (p % nrank)).get w = some (some t)) ∧
        ∀ w u, 1 ≤ w → w ≤ m → Y w = some u →
          ∃ p, getPartition m nty w = some p ∧ (y.get (p % nrank)).get w = some (some u) := by
  obtain ⟨out, D, T', P, a1, _, _, _, a5⟩ := DMat.ofEdges_spec hsrt g hth hy0 hx0 hr hpfn how hlen hin
  obtain ⟨x0, b1, b2, _, b4⟩ := DVec.new_empty (α := T) (n := n) hx0 hr
  obtain ⟨y0, c1, c2, c3, c4⟩ := DVec.new_empty (α := U) (n := m) hy0 hr
  obtain ⟨x, y, Y, d1, d2, d3⟩ := runMul_spec a5 hin hy0 hx0 hr how hth env gx gy (pm := pm) (fun _ _ _ _ _ _ _ => rfl)
    add ops hops 0 (X := fun _ => none) (Y := fun _ => none) hwarm ⟨b2, c2, c3, b4, c4⟩
  obtain ⟨e1, e2⟩ := DVec.reads hx0 hr d2.wx d2.sx
  obtain ⟨f1, f2⟩ := DVec.reads hy0 hr d2.wy d2.sy
  exact ⟨out, D, x0, y0, x, y, a1, b1, c1, d1, _, Y, d3, e1, f1, e2, f2⟩

/-- With `partition_fn_1d`, several ranks and several rows of tiles, the condition always holds. -/
theorem warm_1d {n ntx nty nrank : Nat} (h1 : 2 ≤ nrank) (h2 : 2 ≤ nty) (ops : List (MulOp T U)) (X : Nat → Option T) :
    Warm n ntx nty nrank (fun i _ => i % nrank) ops X := by
  intro pre post _ p hp
  left
  by_cases h : p % nrank = 0
  · exact ⟨1, by omega, by beta_reduce; rw [h, Nat.mod_eq_of_lt (by omega)]; decide⟩
  · exact ⟨0, by omega, by simpa using fun e => h e.symm⟩

/-- C83 with `partition_fn_1d` (the layout of every graph) on two or more ranks: no condition on the program remains. -/
theorem multiply_program_1d {m n ntx nty nrank : Nat} {srt : Sorts E} (hsrt : srt.OK) (g : Nat → Nat → Nat → TileFresh E)
    {threads : Nat} (hth : 0 < threads) (hy0 : 2 ≤ nty) (hx0 : 0 < ntx) (hr : 2 ≤ nrank)
    {blobs : List (List (Edge E))} (hlen : blobs.length = nrank) (hin : ∀ e ∈ blobs.flatten, InMat m n e)
    (env : Nat → MulEnv T U V) (gx : Nat → Nat → Nat → Fresh T) (gy : Nat → Nat → Nat → Fresh U)
    (pm : E → T → U) (add : U → U → U) (ops : List (MulOp T U)) (hops : ∀ op ∈ ops, op.Valid m n) :
    ∃ out D x0 y0 x y, DMat.ofEdges m n ntx nty nrank partitionFn1d srt g threads blobs = some (out, D) ∧
      DVec.new n ntx nrank = some x0 ∧ DVec.new m nty nrank = some y0 ∧
      runMul env gx gy threads nrank D (fun _ _ _ _ e x _ => pm e x) add 0 ops (x0, y0) = some (x, y) ∧
      ∃ X Y, MulSteps m n blobs.flatten pm add ops (fun _ => none) (fun _ => none) X Y ∧
        x.getNNZ = some ((List.range n).countP (fun j => (X (j + 1)).isSome)) ∧
        y.getNNZ = some ((List.range m).countP (fun j => (Y (j + 1)).isSome)) ∧
        (∀ w t, 1 ≤ w → w ≤ n → X w = some t →
          ∃ p, getPartition n ntx w = some p ∧ (x.get (p % nrank)).get w = some (some t)) ∧
        ∀ w u, 1 ≤ w → w ≤ m → Y w = some u →
          ∃ p, getPartition m nty w = some p ∧ (y.get (p % nrank)).get w = some (some u) := by
  obtain ⟨h1, h2⟩ := own1d nrank (by omega)
  exact multiply_program_partial hsrt g hth (by omega) hx0 (by omega) h1 h2 hlen hin env gx gy pm add ops hops
    (warm_1d hr hy0 ops _)

/-! ### One rank -/

/-- Run a program with the matrix `es` on `nrank` ranks and read `y`. -/
def sampleMul (n nrank : Nat) (es : List (Edge Nat)) (ops : List (MulOp Nat Nat)) : Option (Nat × List (Option (Option Nat))) :=
  do
    let (_, D) ← DMat.ofEdges n n nrank nrank nrank partitionFn1d Sorts.ins (fun _ _ _ => (LoadEnv.sample (E := Nat) 0 0).gA 0 0 0) 1
      (es :: List.replicate (nrank - 1) [])
    let x ← DVec.new n nrank nrank
    let y ← DVec.new n nrank nrank
    let (_, y) ← runMul (fun _ => MulEnv.sample 0 0 0) (fun _ _ _ => Fresh.sample 7) (fun _ _ _ => Fresh.sample 8) 1 nrank D
      (fun _ _ _ _ e x _ => e * x) (· + ·) 0 ops (x, y)
    let k ← y.getNNZ
    some (k, (List.range nrank).map (fun r => (y.get r).get 2))

/-- Column 1 has an entry in row 2, column 3 has entries in rows 2 and 1. -/
def sampleMulEdges : List (Edge Nat) := [⟨2, 1, 7⟩, ⟨2, 3, 10⟩, ⟨1, 3, 1⟩]

/-- The full claim of C83 fails on one rank: a multiplication with a vector that was never set dereferences a null pointer,
and after `Clear(&x)` a multiplication still uses the values that `x` had before, though every outcome that the specification
allows leaves `y` empty. -/
theorem multiply_program_false :
    sampleMul 3 1 sampleMulEdges [.mul] = none ∧
    sampleMul 3 1 sampleMulEdges [.onX (.set 1 5), .onX .clear, .mul] = some (1, [some (some 35)]) ∧
    ∀ X Y, MulSteps 3 3 sampleMulEdges (fun e x => e * x) (· + ·) [.onX (.set 1 5), .onX .clear, .mul]
      (fun _ => none) (fun _ => none) X Y → ∀ w, 1 ≤ w → w ≤ 3 → Y w = none := by
  refine ⟨by decide +kernel, by decide +kernel, ?_⟩
  intro X Y h w h1 h2
  cases h with
  | cons a1 h =>
  cases h with
  | cons a2 h =>
  cases h with
  | cons a3 h =>
  cases h with
  | nil hx hy =>
    rename_i x1 y1 x2 y2 x3 y3
    rw [hy w h1 h2]
    have e2 : y2 w = none := by rw [a2.2 w h1 h2, a1.2 w h1 h2]
    have ex : ∀ v, 1 ≤ v → v ≤ 3 → x2 v = none := fun v v1 v2 => a2.1 v v1 v2
    have := a3.2 w h1 h2
    rw [e2, matProducts_congr (m := 3) (n := 3) (x := fun _ => none) (by unfold InMat; decide) ex] at this
    rcases this with ⟨_, e⟩ | ⟨t, ht, _⟩
    · exact e
    · exfalso
      have hz : matProducts (fun _ => none) (fun e x => e * x) sampleMulEdges w = ([] : List Nat) := by
        unfold matProducts
        rw [List.filterMap_eq_nil_iff]
        intro e _
        split <;> rfl
      rw [hz] at ht
      have : t.leaves = [] := by simpa using ht
      cases t with
      | leaf u => simp [RTree.leaves] at this
      | node l r =>
        have hn : ∀ t : RTree Nat, t.leaves ≠ [] := by
          intro t
          induction t with
          | leaf u => simp [RTree.leaves]
          | node l r ihl _ => simp [RTree.leaves, ihl]
        exact hn _ this

/-! ### Programs of the theorem -/

/-- Two products with a change of `x` and a removal from `y` between them, then a product with the cleared vector. -/
def sampleMulOps : List (MulOp Nat Nat) :=
  [.onX (.set 1 5), .onX (.set 3 2), .mul, .onX (.unset 3), .onY (.unset 1), .mul, .onX .clear, .mul]

example : (∀ op ∈ sampleMulOps, op.Valid 3 3) ∧ (∀ e ∈ sampleMulEdges, InMat 3 3 e) ∧
    Warm 3 2 2 2 (fun i _ => i % 2) sampleMulOps (fun _ => none) ∧
    sampleMul 3 2 sampleMulEdges sampleMulOps = some (1, [some (some 90), some none]) := by
  refine ⟨?_, by unfold InMat; decide, warm_1d (by decide) (by decide) _ _, by decide +kernel⟩
  intro op h
  simp [sampleMulOps] at h
  rcases h with rfl | rfl | rfl | rfl | rfl | rfl | rfl | rfl <;> simp [MulOp.Valid, VecOp.Valid]

/-- One rank: the segment of `x` holds an entry at both products. -/
example : Warm 3 1 1 1 (fun i _ => i % 1) (sampleMulOps.take 6) (fun _ => none) ∧
    sampleMul 3 1 sampleMulEdges (sampleMulOps.take 6) = some (1, [some (some 90)]) := by
  refine ⟨?_, by decide +kernel⟩
  intro pre post h p hp
  right
  refine ⟨1, by decide, by decide, by obtain rfl : p = 0 := by omega
                                      decide, ?_⟩
  have : pre = (sampleMulOps.take 6).take 2 ∨ pre = (sampleMulOps.take 6).take 5 := by
    have hl := congrArg List.length h
    have hk : pre = (sampleMulOps.take 6).take pre.length := by rw [h]; simp
    have hm : (sampleMulOps.take 6)[pre.length]? = some .mul := by rw [h]; simp
    have hlt : pre.length < 6 := by simp [sampleMulOps] at hl; omega
    generalize pre.length = k at hk hm hlt
    subst hk
    match k, hlt with
    | 2, _ => exact .inl rfl
    | 5, _ => exact .inr rfl
    | 0, _ => simp [sampleMulOps] at hm
    | 1, _ => simp [sampleMulOps] at hm
    | 3, _ => simp [sampleMulOps] at hm
    | 4, _ => simp [sampleMulOps] at hm
  rcases this with rfl | rfl <;> decide

end GraphMat
