import Verif.Lemmas.Mult3
import Verif.Props.Mult

/-!
# Programs that multiply a matrix with two and with three vectors of any history (C87)
-/
namespace GraphMat

variable {E T U V : Type}

/-- The three vectors hold the three maps, the parts `u` of `x` and `v` are in use, and no foreign copy of `y` has values. -/
structure Mul3Rel (m n ntx nty nrank : Nat) (d : DVec T × DVec V × DVec U) (s : (Nat → Option T) × (Nat → Option V))
    (Y : Nat → Option U) (u : (Nat → Bool) × (Nat → Bool)) : Prop where
  wx : d.1.WF n ntx nrank
  wv : d.2.1.WF m nty nrank
  wy : d.2.2.WF m nty nrank
  quiet : d.2.2.Quiet nty nrank
  sx : ∀ w, 1 ≤ w → w ≤ n → d.1.sem n ntx nrank w = s.1 w
  sv : ∀ w, 1 ≤ w → w ≤ m → d.2.1.sem m nty nrank w = s.2 w
  sy : ∀ w, 1 ≤ w → w ≤ m → d.2.2.sem m nty nrank w = Y w
  ux : ∀ p, p < ntx → u.1 p = true → (d.1.own nrank p).Ready
  uv : ∀ p, p < nty → u.2 p = true → (d.2.1.own nrank p).Ready

/-- The products with the values of `v`, when these are there. -/
theorem matProducts3_covered {m n : Nat} {x x' : Nat → Option T} {v : Nat → Option V} {vm : Nat → V} {pm : E → T → V → U}
    {es : List (Edge E)} (hin : ∀ e ∈ es, InMat m n e) (h : ∀ w, 1 ≤ w → w ≤ n → x' w = x w)
    (hv : ∀ e ∈ es, (x e.dst.toNat).isSome → v e.src.toNat = some (vm e.src.toNat)) (w : Nat) :
    incoming x' (fun w e x => pm e x (vm w)) es w = matProducts3 x v pm es w := by
  unfold matProducts3 incoming
  apply List.filterMap_congr
  intro e he
  obtain ⟨h1, _, h3, h4⟩ := hin e he
  rw [h e.dst.toNat (by omega) (by omega)]
  by_cases hw : e.src = (w : Int)
  · rw [if_pos hw, if_pos hw]
    cases hx : x e.dst.toNat with
    | none => rfl
    | some t =>
      have := hv e he (by rw [hx]; rfl)
      rw [show e.src.toNat = w by omega] at this
      simp [this]
  · rw [if_neg hw, if_neg hw]

section

variable {D : DMat E} {m n ntx nty nrank : Nat} {ow : Nat → Nat → Nat} {T' : Nat → Nat → Tile E}
  {P : Nat → Nat → Nat → List (Col E)} {all : List (Edge E)}

/-- A column of tiles is needed by a rank other than the owner of the segment of `x`. -/
def SharedX (nty nrank : Nat) (ow : Nat → Nat → Nat) (p : Nat) : Prop := ∃ i, i < nty ∧ ow i p ≠ p % nrank

/-- A row of tiles is stored on a rank other than the owner of the segment of `v`. -/
def SharedV (ntx nrank : Nat) (ow : Nat → Nat → Nat) (p : Nat) : Prop := ∃ j, j < ntx ∧ ow p j ≠ p % nrank

theorem reduces_self {add : U → U → U} (o : Option U) : Reduces add o.toList o := by
  cases o with
  | none => exact .inl ⟨rfl, rfl⟩
  | some u => exact .inr ⟨.leaf u, List.Perm.refl _, rfl⟩

/-- One call. -/
theorem Mul3Op.exec_spec [Nonempty V] (h : D.Rep m n ntx nty nrank ow T' P all)
    (hin : ∀ e ∈ all, InMat m n e) (hy0 : 0 < nty) (hx0 : 0 < ntx) (hr : 0 < nrank) (how : ∀ i j, ow i j < nrank)
    {threads : Nat} (hth : 0 < threads) (env : MulEnv T U V) (gx : Nat → Nat → Fresh T) (gv : Nat → Nat → Fresh V)
    (gy : Nat → Nat → Fresh U) {mul : Nat → Nat → Nat → Nat → E → T → U → U} {pm : E → T → U}
    (hm : ∀ i j p nz e x old, mul i j p nz e x old = pm e x) {mul3 : E → T → V → U → U} {pm3 : E → T → V → U}
    (hm3 : ∀ e x v old, mul3 e x v old = pm3 e x v)
    (add : U → U → U) (op : Mul3Op T V U) (hop : op.Valid m n) {d : DVec T × DVec V × DVec U}
    {s : (Nat → Option T) × (Nat → Option V)} {Y : Nat → Option U} {u : (Nat → Bool) × (Nat → Bool)}
    (hs : Mul3Rel m n ntx nty nrank d s Y u)
    (hst : op.Stored ntx nty (SharedX nty nrank ow) (SharedV ntx nrank ow) u)
    (hcov : (op = .mul3) → Covered all s.1 s.2) :
    ∃ d' Y', op.exec env gx gv gy threads nrank D mul mul3 add d = some d' ∧
      Mul3Rel m n ntx nty nrank d' (op.inSpec s) Y'
        (op.inUse (fun w => getPartition n ntx w) (fun w => getPartition m nty w) u) ∧
      op.StepY m all pm pm3 add s Y Y' := by
  obtain ⟨x, v, y⟩ := d
  cases op with
  | onX o =>
    obtain ⟨x', a1, a2, a3⟩ := VecOp.exec_spec hx0 hr gx o hop hs.wx hs.sx
    refine ⟨(x', v, y), Y, ?_, ⟨a2, hs.wv, hs.wy, hs.quiet, a3, hs.sv, hs.sy,
      VecOp.exec_inUse hs.wx hx0 hr hop a1 hs.ux, hs.uv⟩, fun _ _ _ => rfl⟩
    show (o.exec gx x).map _ = _
    rw [a1]
    rfl
  | onV o =>
    obtain ⟨v', a1, a2, a3⟩ := VecOp.exec_spec hy0 hr gv o hop hs.wv hs.sv
    refine ⟨(x, v', y), Y, ?_, ⟨hs.wx, a2, hs.wy, hs.quiet, hs.sx, a3, hs.sy, hs.ux,
      VecOp.exec_inUse hs.wv hy0 hr hop a1 hs.uv⟩, fun _ _ _ => rfl⟩
    show (o.exec gv v).map _ = _
    rw [a1]
    rfl
  | onY o =>
    obtain ⟨y', a1, a2, a3⟩ := VecOp.exec_spec hy0 hr gy o hop hs.wy hs.sy
    refine ⟨(x, v, y'), o.spec Y, ?_, ⟨hs.wx, hs.wv, a2, VecOp.exec_quiet hs.wy hr a1 hs.quiet, hs.sx, hs.sv, a3,
      hs.ux, hs.uv⟩, fun _ _ _ => rfl⟩
    show (o.exec gy y).map _ = _
    rw [a1]
    rfl
  | mul =>
    obtain ⟨x', y', a1, a2, a3, a4, a5, _, a7, a8, _⟩ := DMat.spmspv_shared h hy0 hx0 hr how hth env hm add hs.wx (by
      intro p hp
      rcases hst p hp with e | e
      · exact .inl (hs.ux p hp e)
      · exact .inr e) hs.wy hs.quiet
    refine ⟨(x', v, y'), fun w => y'.sem m nty nrank w, ?_, ⟨a2, hs.wv, a5, a7, ?_, hs.sv, fun _ _ _ => rfl,
      fun p hp _ => a3 p hp, hs.uv⟩, ?_⟩
    · show (D.spmspv env threads nrank mul add x y).map _ = _
      rw [a1]
      rfl
    · intro w h1 h2
      rw [a4 w, hs.sx w h1 h2]
      rfl
    · intro w h1 h2
      have := a8 w h1 h2 _ (reduces_self _)
      rw [hs.sy w h1 h2] at this
      have e : incoming (x.sem n ntx nrank) (fun _ => pm) all w = matProducts s.1 pm all w :=
        matProducts_congr hin hs.sx
      rw [e] at this
      exact this
  | mul3 =>
    have hvm : ∀ e ∈ all, (s.1 e.dst.toNat).isSome →
        s.2 e.src.toNat = some ((s.2 e.src.toNat).getD (Classical.arbitrary V)) := by
      intro e he hx
      obtain ⟨v, hv⟩ := Option.isSome_iff_exists.mp (hcov rfl e he hx)
      rw [hv]
      rfl
    obtain ⟨x', v', y', a1, a2, a3, a4, b2, b3, b4, a5, a7, a8, _⟩ := DMat.spmspv3_shared h hy0 hx0 hr how hth env hm3 add
      hs.wx (by
        intro p hp
        rcases hst.1 p hp with e | e
        · exact .inl (hs.ux p hp e)
        · exact .inr e) hs.wv (by
        intro p hp
        rcases hst.2 p hp with e | e
        · exact .inl (hs.uv p hp e)
        · exact .inr e) (vm := fun w => (s.2 w).getD (Classical.arbitrary V)) (by
        intro e he hx
        obtain ⟨h1, h2, h3, h4⟩ := hin e he
        rw [hs.sx _ (by omega) (by omega)] at hx
        rw [hs.sv _ (by omega) (by omega)]
        exact hvm e he hx) hs.wy hs.quiet
    refine ⟨(x', v', y'), fun w => y'.sem m nty nrank w, a1, ⟨a2, b2, a5, a7, ?_, ?_, fun _ _ _ => rfl,
      fun p hp _ => a3 p hp, fun p hp _ => b3 p hp⟩, ?_⟩
    · intro w h1 h2
      rw [a4 w, hs.sx w h1 h2]
      rfl
    · intro w h1 h2
      rw [b4 w, hs.sv w h1 h2]
      rfl
    · intro w h1 h2
      have := a8 w h1 h2 _ (reduces_self _)
      rw [hs.sy w h1 h2, matProducts3_covered hin hs.sx hvm] at this
      exact this

theorem runMul3_spec [Nonempty V] (h : D.Rep m n ntx nty nrank ow T' P all)
    (hin : ∀ e ∈ all, InMat m n e) (hy0 : 0 < nty) (hx0 : 0 < ntx) (hr : 0 < nrank) (how : ∀ i j, ow i j < nrank)
    {threads : Nat} (hth : 0 < threads) (env : Nat → MulEnv T U V) (gx : Nat → Nat → Nat → Fresh T)
    (gv : Nat → Nat → Nat → Fresh V) (gy : Nat → Nat → Nat → Fresh U)
    {mul : Nat → Nat → Nat → Nat → E → T → U → U} {pm : E → T → U}
    (hm : ∀ i j p nz e x old, mul i j p nz e x old = pm e x) {mul3 : E → T → V → U → U} {pm3 : E → T → V → U}
    (hm3 : ∀ e x v old, mul3 e x v old = pm3 e x v) (add : U → U → U) :
    ∀ (ops : List (Mul3Op T V U)) (_ : ∀ op ∈ ops, op.Valid m n) (k : Nat) {d : DVec T × DVec V × DVec U}
      {s : (Nat → Option T) × (Nat → Option V)} {Y : Nat → Option U} {u : (Nat → Bool) × (Nat → Bool)}
      (_ : AllStored ntx nty (SharedX nty nrank ow) (SharedV ntx nrank ow) (fun w => getPartition n ntx w)
        (fun w => getPartition m nty w) ops u) (_ : AllCovered all ops s) (_ : Mul3Rel m n ntx nty nrank d s Y u),
    ∃ d' Y' u', runMul3 env gx gv gy threads nrank D mul mul3 add k ops d = some d' ∧
      Mul3Rel m n ntx nty nrank d' (inMaps ops s) Y' u' ∧ Mul3Steps m all pm pm3 add ops s Y Y' ∧
      ∀ op, AllStored ntx nty (SharedX nty nrank ow) (SharedV ntx nrank ow) (fun w => getPartition n ntx w)
        (fun w => getPartition m nty w) (ops ++ [op]) u →
        op.Stored ntx nty (SharedX nty nrank ow) (SharedV ntx nrank ow) u' := by
  intro ops
  induction ops with
  | nil =>
    intro _ k d s Y u _ _ hs
    exact ⟨d, Y, u, rfl, hs, .nil (fun _ _ _ => rfl), fun op h => h.1⟩
  | cons op ops ih =>
    intro hops k d s Y u hst hc hs
    obtain ⟨d1, Y1, a1, a2, a3⟩ := Mul3Op.exec_spec h hin hy0 hx0 hr how hth (env k) (gx k) (gv k) (gy k) hm hm3 add op
      (hops op List.mem_cons_self) hs hst.1 (by
        rintro rfl
        exact hc.1)
    obtain ⟨d', Y', u', b1, b2, b3, b4⟩ := ih (fun o ho => hops o (List.mem_cons_of_mem _ ho)) (k + 1) hst.2 hc.2 a2
    refine ⟨d', Y', u', ?_, b2, .cons a3 b3, fun op' h' => b4 op' h'.2⟩
    unfold runMul3
    rw [a1]
    exact b1

theorem runMul3_append (env : Nat → MulEnv T U V) (gx : Nat → Nat → Nat → Fresh T)
    (gv : Nat → Nat → Nat → Fresh V) (gy : Nat → Nat → Nat → Fresh U) (threads : Nat)
    (mul : Nat → Nat → Nat → Nat → E → T → U → U) (mul3 : E → T → V → U → U) (add : U → U → U)
    (ops ops' : List (Mul3Op T V U)) : ∀ (k : Nat) (d : DVec T × DVec V × DVec U),
    runMul3 env gx gv gy threads nrank D mul mul3 add k (ops ++ ops') d =
      (runMul3 env gx gv gy threads nrank D mul mul3 add k ops d).bind
        (runMul3 env gx gv gy threads nrank D mul mul3 add (k + ops.length) ops') := by
  induction ops with
  | nil => intro k d; rfl
  | cons op ops ih =>
    intro k d
    show (op.exec (env k) (gx k) (gv k) (gy k) threads nrank D mul mul3 add d).bind
        (runMul3 env gx gv gy threads nrank D mul mul3 add (k + 1) (ops ++ ops')) =
      ((op.exec (env k) (gx k) (gv k) (gy k) threads nrank D mul mul3 add d).bind
        (runMul3 env gx gv gy threads nrank D mul mul3 add (k + 1) ops)).bind _
    cases op.exec (env k) (gx k) (gv k) (gy k) threads nrank D mul mul3 add d with
    | none => rfl
    | some d1 =>
      rw [Option.bind_some, Option.bind_some, ih, List.length_cons, show k + (ops.length + 1) = k + 1 + ops.length by omega]

end

section

variable {m n ntx nty nrank : Nat} {pfn : Nat → Nat → Nat → Option Nat} {ow : Nat → Nat → Nat} {srt : Sorts E} {threads : Nat}
  {blobs : List (List (Edge E))}

/-- C87, as far as it holds: a program builds a matrix (any size, any tiling, any placement of the tiles on any number of
ranks) and three new vectors, and makes any sequence of `set`, `unset`, `setAll`, `Clear` on the vectors, `SpMSpV` and
`SpMSpV3`.  It does not fail, and the vectors read (`getNNZ`, `get`) as the specification allows, whatever memory holds.
The values of `v` that a product needs have to be there (`AllCovered`; otherwise see `multiply3_uncovered`).  Missing: products
where a part of an operand is not in use and is not sent to another rank (`AllStored`); there the code dereferences a null
pointer or uses values that are not in the vector any more (`multiply3_program_false`). -/
theorem multiply3_program_partial [Nonempty V] (hsrt : srt.OK) (g : Nat → Nat → Nat → TileFresh E) (hth : 0 < threads)
    (hy0 : 0 < nty) (hx0 : 0 < ntx) (hr : 0 < nrank) (hpfn : ∀ i j, pfn j i nrank = some (ow i j))
    (how : ∀ i j, ow i j < nrank) (hlen : blobs.length = nrank) (hin : ∀ e ∈ blobs.flatten, InMat m n e)
    (env : Nat → MulEnv T U V) (gx : Nat → Nat → Nat → Fresh T) (gv : Nat → Nat → Nat → Fresh V)
    (gy : Nat → Nat → Nat → Fresh U) (pm : E → T → U) (pm3 : E → T → V → U) (add : U → U → U)
    (ops : List (Mul3Op T V U)) (hops : ∀ op ∈ ops, op.Valid m n)
    (hst : AllStored ntx nty (SharedX nty nrank ow) (SharedV ntx nrank ow) (fun w => getPartition n ntx w)
      (fun w => getPartition m nty w) ops (fun _ => false, fun _ => false))
    (hcov : AllCovered blobs.flatten ops (fun _ => none, fun _ => none)) :
    ∃ out D x0 v0 y0 x v y, DMat.ofEdges m n ntx nty nrank pfn srt g threads blobs = some (out, D) ∧
      DVec.new n ntx nrank = some x0 ∧ DVec.new m nty nrank = some v0 ∧ DVec.new m nty nrank = some y0 ∧
      runMul3 env gx gv gy threads nrank D (fun _ _ _ _ e x _ => pm e x) (fun e x v _ => pm3 e x v) add 0 ops (x0, v0, y0) =
        some (x, v, y) ∧
      ∃ Y, Mul3Steps m blobs.flatten pm pm3 add ops (fun _ => none, fun _ => none) (fun _ => none) Y ∧
        x.getNNZ = some ((List.range n).countP
          (fun j => ((inMaps ops (fun _ => none, fun _ => none)).1 (j + 1)).isSome)) ∧
        v.getNNZ = some ((List.range m).countP
          (fun j => ((inMaps ops (fun _ => none, fun _ => none)).2 (j + 1)).isSome)) ∧
        y.getNNZ = some ((List.range m).countP (fun j => (Y (j + 1)).isSome)) ∧
        (∀ w t, 1 ≤ w → w ≤ n → (inMaps ops (fun _ => none, fun _ => none)).1 w = some t →
          ∃ p, getPartition n ntx w = some p ∧ (x.get (p % nrank)).get w = some (some t)) ∧
        (∀ w t, 1 ≤ w → w ≤ m → (inMaps ops (fun _ => none, fun _ => none)).2 w = some t →
          ∃ p, getPartition m nty w = some p ∧ (v.get (p % nrank)).get w = some (some t)) ∧
        ∀ w t, 1 ≤ w → w ≤ m → Y w = some t →
          ∃ p, getPartition m nty w = some p ∧ (y.get (p % nrank)).get w = some (some t) := by
  obtain ⟨out, D, T', P, a1, _, _, _, a5⟩ := DMat.ofEdges_spec hsrt g hth hy0 hx0 hr hpfn how hlen hin
  obtain ⟨x0, b1, b2, _, b4⟩ := DVec.new_empty (α := T) (n := n) hx0 hr
  obtain ⟨v0, v1, v2, _, v4⟩ := DVec.new_empty (α := V) (n := m) hy0 hr
  obtain ⟨y0, c1, c2, c3, c4⟩ := DVec.new_empty (α := U) (n := m) hy0 hr
  obtain ⟨⟨x, v, y⟩, Y, u', d1, d2, d3, _⟩ := runMul3_spec a5 hin hy0 hx0 hr how hth env gx gv gy (pm := pm)
    (fun _ _ _ _ _ _ _ => rfl) (pm3 := pm3) (fun _ _ _ _ => rfl) add ops hops 0 (d := (x0, v0, y0)) (Y := fun _ => none) hst hcov
    ⟨b2, v2, c2, c3, b4, v4, c4, fun _ _ h => by simp at h, fun _ _ h => by simp at h⟩
  obtain ⟨e1, e2⟩ := DVec.reads hx0 hr d2.wx d2.sx
  obtain ⟨k1, k2⟩ := DVec.reads hy0 hr d2.wv d2.sv
  obtain ⟨f1, f2⟩ := DVec.reads hy0 hr d2.wy d2.sy
  exact ⟨out, D, x0, v0, y0, x, v, y, a1, b1, v1, c1, d1, Y, d3, e1, k1, f1, e2, k2, f2⟩

/-- C87: a product with `v` where a value of `v` that is needed is missing is reported (the assertion in `my_spmspv3`): the
program does not go on with a wrong result. -/
theorem multiply3_uncovered [Nonempty V] (hsrt : srt.OK) (g : Nat → Nat → Nat → TileFresh E) (hth : 0 < threads)
    (hy0 : 0 < nty) (hx0 : 0 < ntx) (hr : 0 < nrank) (hpfn : ∀ i j, pfn j i nrank = some (ow i j))
    (how : ∀ i j, ow i j < nrank) (hlen : blobs.length = nrank) (hin : ∀ e ∈ blobs.flatten, InMat m n e)
    (env : Nat → MulEnv T U V) (gx : Nat → Nat → Nat → Fresh T) (gv : Nat → Nat → Nat → Fresh V)
    (gy : Nat → Nat → Nat → Fresh U) (pm : E → T → U) (pm3 : E → T → V → U) (add : U → U → U)
    (ops post : List (Mul3Op T V U)) (hops : ∀ op ∈ ops, op.Valid m n)
    (hst : AllStored ntx nty (SharedX nty nrank ow) (SharedV ntx nrank ow) (fun w => getPartition n ntx w)
      (fun w => getPartition m nty w) (ops ++ [.mul3]) (fun _ => false, fun _ => false))
    (hcov : AllCovered blobs.flatten ops (fun _ => none, fun _ => none))
    (hmiss : ¬ Covered blobs.flatten (inMaps ops (fun _ => none, fun _ => none)).1
      (inMaps ops (fun _ => none, fun _ => none)).2) :
    ∃ out D x0 v0 y0, DMat.ofEdges m n ntx nty nrank pfn srt g threads blobs = some (out, D) ∧
      DVec.new n ntx nrank = some x0 ∧ DVec.new m nty nrank = some v0 ∧ DVec.new m nty nrank = some y0 ∧
      runMul3 env gx gv gy threads nrank D (fun _ _ _ _ e x _ => pm e x) (fun e x v _ => pm3 e x v) add 0
        (ops ++ .mul3 :: post) (x0, v0, y0) = none := by
  obtain ⟨out, D, T', P, a1, _, _, _, a5⟩ := DMat.ofEdges_spec hsrt g hth hy0 hx0 hr hpfn how hlen hin
  obtain ⟨x0, b1, b2, _, b4⟩ := DVec.new_empty (α := T) (n := n) hx0 hr
  obtain ⟨v0, v1, v2, _, v4⟩ := DVec.new_empty (α := V) (n := m) hy0 hr
  obtain ⟨y0, c1, c2, c3, c4⟩ := DVec.new_empty (α := U) (n := m) hy0 hr
  have hst' : ∀ (l : List (Mul3Op T V U)) (u : (Nat → Bool) × (Nat → Bool)),
      AllStored ntx nty (SharedX nty nrank ow) (SharedV ntx nrank ow) (fun w => getPartition n ntx w)
        (fun w => getPartition m nty w) (l ++ [.mul3]) u →
      AllStored ntx nty (SharedX nty nrank ow) (SharedV ntx nrank ow) (fun w => getPartition n ntx w)
        (fun w => getPartition m nty w) l u := by
    intro l
    induction l with
    | nil => intro _ _; trivial
    | cons op l ih => intro u h; exact ⟨h.1, ih _ h.2⟩
  obtain ⟨⟨x, v, y⟩, Y, u', d1, d2, d3, d4⟩ := runMul3_spec a5 hin hy0 hx0 hr how hth env gx gv gy (pm := pm)
    (fun _ _ _ _ _ _ _ => rfl) (pm3 := pm3) (fun _ _ _ _ => rfl) add ops hops 0 (d := (x0, v0, y0)) (Y := fun _ => none)
    (hst' _ _ hst) hcov
    ⟨b2, v2, c2, c3, b4, v4, c4, fun _ _ h => by simp at h, fun _ _ h => by simp at h⟩
  have hs := d4 .mul3 hst
  refine ⟨out, D, x0, v0, y0, a1, b1, v1, c1, ?_⟩
  rw [runMul3_append, d1, Option.bind_some]
  unfold runMul3
  refine none_fails ?_
  unfold Covered at hmiss
  push Not at hmiss
  obtain ⟨e, he, hx, hv⟩ := hmiss
  obtain ⟨h1, h2, h3, h4⟩ := hin e he
  refine DMat.spmspv3_missing a5 hy0 hx0 hr how hth (env (0 + ops.length)) (pm := pm3) (fun _ _ _ _ => rfl) add d2.wx (by
      intro p hp
      rcases hs.1 p hp with e | e
      · exact .inl (d2.ux p hp e)
      · exact .inr e) d2.wv (by
      intro p hp
      rcases hs.2 p hp with e | e
      · exact .inl (d2.uv p hp e)
      · exact .inr e) he ?_ ?_ d2.wy
  · rw [d2.sx _ (by omega) (by omega)]
    exact hx
  · rw [d2.sv _ (by omega) (by omega)]
    simpa using hv

/-- A call that takes no value away from `v`. -/
def Mul3Op.KeepsV : Mul3Op T V U → Prop
  | .onV (.unset _) => False
  | .onV .clear => False
  | _ => True

theorem keepsV_stored {n' m' : Nat → Option Nat} (h1 : 2 ≤ nrank) (h2 : 2 ≤ nty) (ops : List (Mul3Op T V U))
    (hk : ∀ op ∈ ops, op.KeepsV) : ∀ u : (Nat → Bool) × (Nat → Bool), (∀ p, u.2 p = true) →
    AllStored ntx nty (SharedX nty nrank (fun i _ => i % nrank)) (SharedV ntx nrank (fun i _ => i % nrank)) n' m' ops u := by
  have hx : ∀ p, SharedX nty nrank (fun i _ => i % nrank) p := by
    intro p
    by_cases h : p % nrank = 0
    · exact ⟨1, by omega, by beta_reduce; rw [h, Nat.mod_eq_of_lt (by omega)]; decide⟩
    · exact ⟨0, by omega, by simpa using fun e => h e.symm⟩
  induction ops with
  | nil => intro _ _; trivial
  | cons op ops ih =>
    intro u hu
    have hk1 := hk op List.mem_cons_self
    refine ⟨?_, ih (fun o ho => hk o (List.mem_cons_of_mem _ ho)) _ ?_⟩
    · cases op with
      | mul => exact fun p _ => .inr (hx p)
      | mul3 => exact ⟨fun p _ => .inr (hx p), fun p _ => .inl (hu p)⟩
      | _ => trivial
    · intro p
      cases op with
      | onV o =>
        cases o with
        | set w x => simp [Mul3Op.inUse, VecOp.inUse, hu p]
        | setAll x => rfl
        | unset w => exact hk1.elim
        | clear => exact hk1.elim
      | mul3 => rfl
      | mul => exact hu p
      | onX o => exact hu p
      | onY o => exact hu p

theorem keepsV_covered (es : List (Edge E)) (ops : List (Mul3Op T V U))
    (hk : ∀ op ∈ ops, op.KeepsV) : ∀ s : (Nat → Option T) × (Nat → Option V), (∀ w, (s.2 w).isSome) →
    AllCovered es ops s := by
  induction ops with
  | nil => intro _ _; trivial
  | cons op ops ih =>
    intro s hs
    have hk1 := hk op List.mem_cons_self
    refine ⟨?_, ih (fun o ho => hk o (List.mem_cons_of_mem _ ho)) _ ?_⟩
    · cases op with
      | mul3 => exact fun e _ _ => hs _
      | _ => trivial
    · intro w
      cases op with
      | onV o =>
        cases o with
        | set w x => simp only [Mul3Op.inSpec, VecOp.spec]; split; rfl; exact hs _
        | setAll x => rfl
        | unset w => exact hk1.elim
        | clear => exact hk1.elim
      | mul3 => exact hs w
      | mul => exact hs w
      | onX o => exact hs w
      | onY o => exact hs w

/-- C87 for the use that graphs make of it (`partition_fn_1d`, two or more ranks, `v` gets a value everywhere at the start and
keeps one): no condition on the rest of the program remains. -/
theorem multiply3_program_1d [Nonempty V] (hsrt : srt.OK) (g : Nat → Nat → Nat → TileFresh E) (hth : 0 < threads)
    (hy0 : 2 ≤ nty) (hx0 : 0 < ntx) (hr : 2 ≤ nrank) (hlen : blobs.length = nrank)
    (hin : ∀ e ∈ blobs.flatten, InMat m n e)
    (env : Nat → MulEnv T U V) (gx : Nat → Nat → Nat → Fresh T) (gv : Nat → Nat → Nat → Fresh V)
    (gy : Nat → Nat → Nat → Fresh U) (pm : E → T → U) (pm3 : E → T → V → U) (add : U → U → U) (a : V)
    (ops : List (Mul3Op T V U)) (hops : ∀ op ∈ ops, op.Valid m n) (hk : ∀ op ∈ ops, op.KeepsV) :
    ∃ out D x0 v0 y0 x v y, DMat.ofEdges m n ntx nty nrank partitionFn1d srt g threads blobs = some (out, D) ∧
      DVec.new n ntx nrank = some x0 ∧ DVec.new m nty nrank = some v0 ∧ DVec.new m nty nrank = some y0 ∧
      runMul3 env gx gv gy threads nrank D (fun _ _ _ _ e x _ => pm e x) (fun e x v _ => pm3 e x v) add 0
        (.onV (.setAll a) :: ops) (x0, v0, y0) = some (x, v, y) ∧
      ∃ Y, Mul3Steps m blobs.flatten pm pm3 add (.onV (.setAll a) :: ops) (fun _ => none, fun _ => none) (fun _ => none) Y ∧
        y.getNNZ = some ((List.range m).countP (fun j => (Y (j + 1)).isSome)) ∧
        ∀ w t, 1 ≤ w → w ≤ m → Y w = some t →
          ∃ p, getPartition m nty w = some p ∧ (y.get (p % nrank)).get w = some (some t) := by
  obtain ⟨h1, h2⟩ := own1d nrank (by omega)
  obtain ⟨out, D, x0, v0, y0, x, v, y, a1, a2, a3, a4, a5, Y, a6, _, _, a7, _, _, a8⟩ :=
    multiply3_program_partial hsrt g hth (by omega) hx0 (by omega) h1 h2 hlen hin env gx gv gy pm pm3 add
      (.onV (.setAll a) :: ops) (by
        intro op hop
        rcases List.mem_cons.mp hop with rfl | hop
        · trivial
        · exact hops op hop)
      ⟨trivial, keepsV_stored hr hy0 ops hk _ (fun _ => rfl)⟩ ⟨trivial, keepsV_covered _ ops hk _ (fun _ => rfl)⟩
  exact ⟨out, D, x0, v0, y0, x, v, y, a1, a2, a3, a4, a5, Y, a6, a7, a8⟩

end

/-! ### Runs of programs -/

/-- Run a program with the matrix `es` on `nrank` ranks and read `y`. -/
def sampleMul3 (n nrank : Nat) (es : List (Edge Nat)) (ops : List (Mul3Op Nat Nat Nat)) :
    Option (Nat × List (Option (Option Nat))) :=
  do
    let (_, D) ← DMat.ofEdges n n nrank nrank nrank partitionFn1d Sorts.ins (fun _ _ _ => (LoadEnv.sample (E := Nat) 0 0).gA 0 0 0) 1
      (es :: List.replicate (nrank - 1) [])
    let x ← DVec.new n nrank nrank
    let v ← DVec.new n nrank nrank
    let y ← DVec.new n nrank nrank
    let (_, _, y) ← runMul3 (fun _ => MulEnv.sample 0 0 0) (fun _ _ _ => Fresh.sample 7) (fun _ _ _ => Fresh.sample 9)
      (fun _ _ _ => Fresh.sample 8) 1 nrank D
      (fun _ _ _ _ e x _ => e * x) (fun e x v _ => e * x + v) (· + ·) 0 ops (x, v, y)
    let k ← y.getNNZ
    some (k, (List.range nrank).map (fun r => (y.get r).get 2))

/-- The full claim of C87 fails on one rank: a product with vectors that were never set dereferences a null pointer (even if
only `v` was never set), and after `Clear(&v)` a product still uses the values that `v` had before, though every outcome that
the specification allows leaves `y` empty. -/
theorem multiply3_program_false :
    sampleMul3 3 1 sampleMulEdges [.mul3] = none ∧
    sampleMul3 3 1 sampleMulEdges [.onX (.set 2 5), .mul3] = none ∧
    sampleMul3 3 1 sampleMulEdges [.onX (.set 1 5), .onV (.setAll 100), .onV .clear, .mul3] = some (1, [some (some 135)]) ∧
    ∀ Y, Mul3Steps 3 sampleMulEdges (fun e x => e * x) (fun e x v => e * x + v) (· + ·)
      [.onX (.set 1 5), .onV (.setAll 100), .onV .clear, .mul3] (fun _ => none, fun _ => none) (fun _ => none) Y →
      ∀ w, 1 ≤ w → w ≤ 3 → Y w = none := by
  refine ⟨by decide +kernel, by decide +kernel, by decide +kernel, ?_⟩
  intro Y h w h1 h2
  cases h with
  | cons a1 h =>
  cases h with
  | cons a2 h =>
  cases h with
  | cons a3 h =>
  cases h with
  | cons a4 h =>
  cases h with
  | nil hy =>
    have e1 := a1 w h1 h2
    have e2 := a2 w h1 h2
    have e3 := a3 w h1 h2
    have e4 := a4 w h1 h2
    simp only at e1 e2 e3 e4
    rw [hy w h1 h2]
    have hz : ∀ x : Nat → Option Nat,
        matProducts3 x (fun _ => (none : Option Nat)) (fun e x v => e * x + v) sampleMulEdges w = ([] : List Nat) := by
      intro x
      unfold matProducts3
      rw [List.filterMap_eq_nil_iff]
      intro e _
      split
      · cases x e.dst.toNat <;> rfl
      · rfl
    have e : ∀ s : (Nat → Option Nat) × (Nat → Option Nat), s.2 = (fun _ => none) →
        matProducts3 s.1 s.2 (fun e x v => e * x + v) sampleMulEdges w = ([] : List Nat) := by
      intro s hs
      rw [hs]
      exact hz _
    rw [e _ rfl, e3, e2, e1] at e4
    rcases e4 with ⟨_, e⟩ | ⟨t, ht, _⟩
    · exact e
    · exfalso
      have : t.leaves = [] := by simpa using ht
      have hn : ∀ t : RTree Nat, t.leaves ≠ [] := by
        intro t
        induction t with
        | leaf u => simp [RTree.leaves]
        | node l r ihl _ => simp [RTree.leaves, ihl]
      exact hn _ this

/-- `v` has values in the rows that are reached only. -/
def sampleMul3Ops : List (Mul3Op Nat Nat Nat) :=
  [.onX (.set 1 5), .onV (.set 2 100), .mul3, .onX (.set 3 2), .mul, .onX (.unset 3), .onY (.unset 1), .mul3]

/-- One rank: the one segment of `x` and of `v` is in use at every product. -/
example : AllStored 1 1 (SharedX 1 1 (fun i _ => i % 1)) (SharedV 1 1 (fun i _ => i % 1)) (fun w => getPartition 3 1 w)
      (fun w => getPartition 3 1 w) sampleMul3Ops (fun _ => false, fun _ => false) ∧
    AllCovered sampleMulEdges sampleMul3Ops (fun _ => none, fun _ => none) ∧
    sampleMul3 3 1 sampleMulEdges sampleMul3Ops = some (1, [some (some 325)]) := by
  have hp : ∀ p, p < 1 → p = 0 := fun p h => by omega
  refine ⟨⟨trivial, trivial, ⟨?_, ?_⟩, trivial, ?_, trivial, trivial, ⟨?_, ?_⟩, trivial⟩, ?_, by decide +kernel⟩
  iterate 5
    · intro p h
      obtain rfl := hp p h
      exact .inl (by decide)
  · unfold AllCovered
    refine ⟨trivial, trivial, ?_, trivial, trivial, trivial, trivial, ?_, trivial⟩ <;>
      (unfold Covered; decide)

/-- Two ranks. -/
example : (∀ op ∈ sampleMul3Ops.drop 2, op.Valid 3 3) ∧ (∀ op ∈ sampleMul3Ops.drop 2, op.KeepsV) ∧
    sampleMul3 3 2 sampleMulEdges (.onV (.setAll 7) :: sampleMul3Ops) = some (1, [some (some 325), some none]) := by
  refine ⟨?_, ?_, by decide +kernel⟩
  · intro op h
    simp [sampleMul3Ops] at h
    rcases h with rfl | rfl | rfl | rfl | rfl | rfl <;> simp [Mul3Op.Valid, VecOp.Valid]
  · intro op h
    simp [sampleMul3Ops] at h
    rcases h with rfl | rfl | rfl | rfl | rfl | rfl <;> simp [Mul3Op.KeepsV]

/-- Row 1 is reached and has no value in `v`. -/
def sampleMul3Miss : List (Mul3Op Nat Nat Nat) := [.onX (.set 3 5), .onV (.set 2 100)]

example : AllStored 1 1 (SharedX 1 1 (fun i _ => i % 1)) (SharedV 1 1 (fun i _ => i % 1)) (fun w => getPartition 3 1 w)
      (fun w => getPartition 3 1 w) (sampleMul3Miss ++ [.mul3]) (fun _ => false, fun _ => false) ∧
    ¬ Covered sampleMulEdges (inMaps sampleMul3Miss (fun _ => none, fun _ => none)).1
      (inMaps sampleMul3Miss (fun _ => none, fun _ => none)).2 ∧
    sampleMul3 3 1 sampleMulEdges (sampleMul3Miss ++ .mul3 :: [.onV .clear]) = none := by
  have hp : ∀ p, p < 1 → p = 0 := fun p h => by omega
  refine ⟨⟨trivial, trivial, ⟨?_, ?_⟩, trivial⟩, ?_, by decide +kernel⟩
  iterate 2
    · intro p h
      obtain rfl := hp p h
      exact .inl (by decide)
  · unfold Covered
    decide

end GraphMat
