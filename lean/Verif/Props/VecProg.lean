import Verif.Lemmas.VecProg
import Verif.Props.Mult3

/-!
# Programs that use all operations on vectors (C88)
-/
namespace GraphMat

variable {E T : Type}

/-- A vector holds a map, has no values in foreign copies, and its parts have the given histories. -/
structure VecRel (n nseg nrank : Nat) (d : DVec T) (s : Nat → Option T) (u : Nat → PartUse) : Prop where
  wf : d.WF n nseg nrank
  quiet : d.Quiet nseg nrank
  sem : ∀ w, 1 ≤ w → w ≤ n → d.sem n nseg nrank w = s w
  parts : ∀ p, p < nseg → PartOk (d.own nrank p) (u p)

/-- The parts of the vectors after a sequence of calls. -/
def usesAfter (part : Nat → Option Nat) (ops : List (VarOp E T)) (u : Nat → Nat → PartUse) : Nat → Nat → PartUse :=
  ops.foldl (fun u op => op.use part u) u

section

variable {D : DMat E} {n nseg nrank : Nat} {ow : Nat → Nat → Nat} {T' : Nat → Nat → Tile E}
  {P : Nat → Nat → Nat → List (Col E)} {all : List (Edge E)}

/-- One call. -/
theorem VarOp.exec_spec [Nonempty T] (h : D.Rep n n nseg nseg nrank ow T' P all)
    (hin : ∀ e ∈ all, InMat n n e) (hs0 : 0 < nseg) (hr : 0 < nrank) (how : ∀ i j, ow i j < nrank)
    {threads : Nat} (hth : 0 < threads) (env : MulEnv T T T) (g : Nat → Nat → Fresh T) (op : VarOp E T) (hop : op.Valid n)
    {d : Nat → DVec T} {s : Nat → Nat → Option T} {u : Nat → Nat → PartUse}
    (hs : ∀ v, VecRel n nseg nrank (d v) (s v) (u v))
    (hsafe : op.Safe nseg (SharedX nseg nrank ow) (SharedV nseg nrank ow) all u s) :
    ∃ d' s', op.exec env g threads nrank D d = some d' ∧
      (∀ v, VecRel n nseg nrank (d' v) (s' v) (op.use (fun w => getPartition n nseg w) u v)) ∧ op.Step n all s s' := by
  cases op with
  | on i o =>
    obtain ⟨x, a1, a2, a3⟩ := VecOp.exec_spec hs0 hr g o hop (hs i).wf (hs i).sem
    refine ⟨putVec d i x, fun v w => if v = i then o.spec (s i) w else s v w, ?_, ?_, fun _ _ _ _ => rfl⟩
    · show (o.exec g (d i)).map _ = _
      rw [a1]
      rfl
    · intro v
      unfold putVec VarOp.use
      by_cases e : v = i
      · subst e
        simp only [if_true]
        exact ⟨a2, VecOp.exec_quiet (hs v).wf hr a1 (hs v).quiet, a3, VecOp.exec_use (hs v).wf hs0 hr hop a1 (hs v).parts⟩
      · simp only [if_neg e]
        exact hs v
  | apply f i j =>
    obtain ⟨x, a1, a2, a3, a4, a5⟩ := DVec.apply_spec (hs i).wf (hs j).wf hr (by
      intro p hp
      have := (hs i).parts p hp
      rw [hsafe p hp] at this
      exact this) g f
    refine ⟨putVec d j x, fun v w => if v = j then (match s i w with | some x => some (f x) | none => s j w) else s v w,
      ?_, ?_, fun _ _ _ _ => rfl⟩
    · show (DVec.apply g _ (d i) (d j)).map _ = _
      rw [a1]
      rfl
    · intro v
      unfold putVec VarOp.use
      by_cases e : v = j
      · subst e
        simp only [if_true]
        refine ⟨a2, a5 (hs v).quiet, ?_, fun p hp => a3 p hp⟩
        intro w h1 h2
        rw [a4, (hs i).sem w h1 h2, (hs v).sem w h1 h2]
        cases s i w <;> rfl
      · simp only [if_neg e]
        exact hs v
  | applySelf f i =>
    obtain ⟨x, a1, a2, a3, a4⟩ := DVec.applySelf_spec (hs i).wf hr g (fun x _ => f x)
    refine ⟨putVec d i x, fun v w => if v = i then (s i w).map f else s v w, ?_, ?_, fun _ _ _ _ => rfl⟩
    · show (eachRank (d i) _).map _ = _
      rw [a1]
      rfl
    · intro v
      unfold putVec VarOp.use
      by_cases e : v = i
      · subst e
        simp only [if_true]
        refine ⟨a2, DVec.applySelf_quiet (hs v).wf hr a1 (hs v).quiet, ?_, fun p hp => a3 p hp⟩
        intro w h1 h2
        rw [a4, (hs v).sem w h1 h2]
      · simp only [if_neg e]
        exact hs v
  | intersect f i j k =>
    obtain ⟨x, a1, a2, a3, a4, a5⟩ := DVec.intersectReduce_any (hs i).wf (hs j).wf (hs k).wf hr (by
      intro p hp
      obtain ⟨b1, b2, b3⟩ := hsafe p hp
      refine ⟨((hs i).parts p hp).allocated b1, ((hs j).parts p hp).allocated b2, ?_⟩
      rcases b3 with ⟨b3, b4⟩ | b3
      · have c1 := (hs i).parts p hp
        have c2 := (hs j).parts p hp
        rw [b3] at c1
        rw [b4] at c2
        exact .inl ⟨c1, c2⟩
      · exact .inr (((hs k).parts p hp).empty b3)) g f
    refine ⟨putVec d k x, fun v w => if v = k then (s i w).bind (fun a => (s j w).map (f a)) else s v w,
      ?_, ?_, fun _ _ _ _ => rfl⟩
    · show (DVec.intersectReduce g _ (d i) (d j) (d k)).map _ = _
      rw [a1]
      rfl
    · intro v
      unfold putVec VarOp.use
      by_cases e : v = k
      · subst e
        simp only [if_true]
        refine ⟨a2, a5 (hs v).quiet, ?_, fun p hp => a3 p hp⟩
        intro w h1 h2
        rw [a4, (hs i).sem w h1 h2, (hs j).sem w h1 h2]
      · simp only [if_neg e]
        exact hs v
  | mul pm add i j =>
    have hij : i ≠ j := hop
    obtain ⟨x', y', a1, a2, a3, a4, a5, a6, a7, a8, _⟩ := DMat.spmspv_shared h hs0 hs0 hr how hth env
      (mul := fun _ _ _ _ e x _ => pm e x) (pm := pm) (fun _ _ _ _ _ _ _ => rfl) add (hs i).wf (by
      intro p hp
      rcases hsafe p hp with e | e
      · have := (hs i).parts p hp
        rw [e] at this
        exact .inl this
      · exact .inr e) (hs j).wf (hs j).quiet
    have a9 := DMat.spmspv_quiet h hr how hth (hs i).wf (hs i).quiet a1
    refine ⟨putVec (putVec d i x') j y', fun v w => if v = j then y'.sem n nseg nrank w else s v w, ?_, ?_, ?_⟩
    · show (D.spmspv env threads nrank _ add (d i) (d j)).map _ = _
      rw [a1]
      rfl
    · intro v
      unfold putVec VarOp.use
      by_cases e : v = j
      · subst e
        simp only [if_true, or_true]
        exact ⟨a5, a7, fun _ _ _ => rfl, fun p hp => a6 p hp⟩
      · by_cases e' : v = i
        · subst e'
          simp only [if_neg e, if_true, true_or]
          exact ⟨a2, a9, fun w h1 h2 => by rw [a4, (hs v).sem w h1 h2], fun p hp => a3 p hp⟩
        · simp only [e, e', false_or, if_false]
          exact hs v
    · intro v w h1 h2
      simp only [if_true]
      split
      · have := a8 w h1 h2 _ (reduces_self _)
        rw [(hs j).sem w h1 h2] at this
        have e : incoming ((d i).sem n nseg nrank) (fun _ => pm) all w = matProducts (s i) pm all w :=
          matProducts_congr hin (hs i).sem
        rw [e] at this
        exact this
      · rfl
  | mul3 pm add i j k =>
    obtain ⟨hij, hik, hjk⟩ : i ≠ j ∧ i ≠ k ∧ j ≠ k := hop
    obtain ⟨s1, s2, s3⟩ := hsafe
    have hvm : ∀ e ∈ all, (s i e.dst.toNat).isSome →
        s j e.src.toNat = some ((s j e.src.toNat).getD (Classical.arbitrary T)) := by
      intro e he hx
      obtain ⟨v, hv⟩ := Option.isSome_iff_exists.mp (s3 e he hx)
      rw [hv]
      rfl
    obtain ⟨x', v', y', a1, a2, a3, a4, b2, b3, b4, a5, a7, a8, a9, a10, a11⟩ := DMat.spmspv3_shared h hs0 hs0 hr how hth env
      (mul := fun e x v _ => pm e x v) (pm := pm) (fun _ _ _ _ => rfl) add
      (hs i).wf (by
        intro p hp
        rcases s1 p hp with e | e
        · have := (hs i).parts p hp
          rw [e] at this
          exact .inl this
        · exact .inr e) (hs j).wf (by
        intro p hp
        rcases s2 p hp with e | e
        · have := (hs j).parts p hp
          rw [e] at this
          exact .inl this
        · exact .inr e) (vm := fun w => (s j w).getD (Classical.arbitrary T)) (by
        intro e he hx
        obtain ⟨h1, h2, h3, h4⟩ := hin e he
        rw [(hs i).sem _ (by omega) (by omega)] at hx
        rw [(hs j).sem _ (by omega) (by omega)]
        exact hvm e he hx) (hs k).wf (hs k).quiet
    refine ⟨putVec (putVec (putVec d i x') j v') k y', fun v w => if v = k then y'.sem n nseg nrank w else s v w, ?_, ?_, ?_⟩
    · show (D.spmspv3 env threads nrank _ add (d i) (d j) (d k)).map _ = _
      rw [a1]
      rfl
    · intro v
      unfold putVec VarOp.use
      by_cases e : v = k
      · subst e
        simp only [if_true, or_true]
        exact ⟨a5, a7, fun _ _ _ => rfl, fun p hp => a9 p hp⟩
      · by_cases e' : v = j
        · subst e'
          simp only [if_neg e, if_true, true_or, or_true]
          exact ⟨b2, a11 (hs v).quiet, fun w h1 h2 => by rw [b4, (hs v).sem w h1 h2], fun p hp => b3 p hp⟩
        · by_cases e'' : v = i
          · subst e''
            simp only [if_neg e, if_neg e', if_true, true_or]
            exact ⟨a2, a10 (hs v).quiet, fun w h1 h2 => by rw [a4, (hs v).sem w h1 h2], fun p hp => a3 p hp⟩
          · simp only [e, e', e'', false_or, if_false]
            exact hs v
    · intro v w h1 h2
      simp only [if_true]
      split
      · have := a8 w h1 h2 _ (reduces_self _)
        rw [(hs k).sem w h1 h2, matProducts3_covered hin (hs i).sem hvm] at this
        exact this
      · rfl

theorem runVars_spec [Nonempty T] (h : D.Rep n n nseg nseg nrank ow T' P all)
    (hin : ∀ e ∈ all, InMat n n e) (hs0 : 0 < nseg) (hr : 0 < nrank) (how : ∀ i j, ow i j < nrank)
    {threads : Nat} (hth : 0 < threads) (env : Nat → MulEnv T T T) (g : Nat → Nat → Nat → Fresh T) :
    ∀ (ops : List (VarOp E T)) (_ : ∀ op ∈ ops, op.Valid n) (k : Nat) {d : Nat → DVec T} {s : Nat → Nat → Option T}
      {u : Nat → Nat → PartUse}
      (_ : AllSafe n nseg (SharedX nseg nrank ow) (SharedV nseg nrank ow) (fun w => getPartition n nseg w) all ops u s)
      (_ : ∀ v, VecRel n nseg nrank (d v) (s v) (u v)),
    ∃ d' s', runVars env g threads nrank D k ops d = some d' ∧ VarSteps n all ops s s' ∧
      ∀ v, VecRel n nseg nrank (d' v) (s' v) (usesAfter (fun w => getPartition n nseg w) ops u v) := by
  intro ops
  induction ops with
  | nil =>
    intro _ k d s u _ hs
    exact ⟨d, s, rfl, .nil, hs⟩
  | cons op ops ih =>
    intro hops k d s u hsafe hs
    obtain ⟨d1, s1, a1, a2, a3⟩ := VarOp.exec_spec h hin hs0 hr how hth (env k) (g k) op
      (hops op List.mem_cons_self) hs hsafe.1
    obtain ⟨d', s', b1, b2, b3⟩ := ih (fun o ho => hops o (List.mem_cons_of_mem _ ho)) (k + 1) (hsafe.2 s1 a3) a2
    refine ⟨d', s', ?_, .cons a3 b2, b3⟩
    unfold runVars
    rw [a1]
    exact b1

theorem runVars_append (env : Nat → MulEnv T T T) (g : Nat → Nat → Nat → Fresh T) (threads : Nat)
    (ops ops' : List (VarOp E T)) : ∀ (k : Nat) (d : Nat → DVec T),
    runVars env g threads nrank D k (ops ++ ops') d =
      (runVars env g threads nrank D k ops d).bind (runVars env g threads nrank D (k + ops.length) ops') := by
  induction ops with
  | nil => intro k d; rfl
  | cons op ops ih =>
    intro k d
    show (op.exec (env k) (g k) threads nrank D d).bind (runVars env g threads nrank D (k + 1) (ops ++ ops')) =
      ((op.exec (env k) (g k) threads nrank D d).bind (runVars env g threads nrank D (k + 1) ops)).bind _
    cases op.exec (env k) (g k) threads nrank D d with
    | none => rfl
    | some d1 =>
      rw [Option.bind_some, Option.bind_some, ih, List.length_cons, show k + (ops.length + 1) = k + 1 + ops.length by omega]

end

theorem newVec_rel {n nseg nrank : Nat} (hs : 0 < nseg) (hr : 0 < nrank) :
    ∃ d : DVec T, DVec.new n nseg nrank = some d ∧ VecRel n nseg nrank d (fun _ => none) (fun _ => .never) := by
  obtain ⟨d, a1, a2, a3, a4⟩ := DVec.new_empty (α := T) (n := n) hs hr
  refine ⟨d, a1, a2, a3, a4, ?_⟩
  obtain ⟨d', b1, _, b3⟩ := DVec.new_spec (α := T) n nseg nrank hs
  rw [a1] at b1
  injection b1 with b1
  subst b1
  intro p hp
  show ((d.get (p % nrank)).segs.get p).props = none
  rw [b3 _ p (Nat.mod_lt _ hr) hp]
  rfl

section

variable {n nseg nrank : Nat} {pfn : Nat → Nat → Nat → Option Nat} {ow : Nat → Nat → Nat} {srt : Sorts E} {threads : Nat}
  {blobs : List (List (Edge E))}

/-- C88, as far as it holds: a program builds a square matrix (any size, any tiling, any placement of the tiles on any number
of ranks) and any number of new vectors (variable `i` is vector `d0 i`), and makes any sequence of `set`, `unset`, `setAll`,
`Clear`, `Apply`, `IntersectReduce`, `SpMSpV` and `SpMSpV3` on them.  If the operands of the calls are usable (`AllSafe`), it
does not fail, and the vectors read (`getNNZ`, `get`) as the specification allows, whatever memory holds.  Missing: calls with
operands that are not usable; see `vector_program_null` and `vector_program_false`. -/
theorem vector_program_partial [Nonempty T] (hsrt : srt.OK) (gt : Nat → Nat → Nat → TileFresh E) (hth : 0 < threads)
    (hs0 : 0 < nseg) (hr : 0 < nrank) (hpfn : ∀ i j, pfn j i nrank = some (ow i j))
    (how : ∀ i j, ow i j < nrank) (hlen : blobs.length = nrank) (hin : ∀ e ∈ blobs.flatten, InMat n n e)
    (env : Nat → MulEnv T T T) (g : Nat → Nat → Nat → Fresh T)
    (ops : List (VarOp E T)) (hops : ∀ op ∈ ops, op.Valid n)
    (hsafe : AllSafe n nseg (SharedX nseg nrank ow) (SharedV nseg nrank ow) (fun w => getPartition n nseg w) blobs.flatten ops
      (fun _ _ => .never) (fun _ _ => none)) :
    ∃ out D v0 d, DMat.ofEdges n n nseg nseg nrank pfn srt gt threads blobs = some (out, D) ∧
      DVec.new n nseg nrank = some v0 ∧
      runVars env g threads nrank D 0 ops (fun _ => v0) = some d ∧
      ∃ s, VarSteps n blobs.flatten ops (fun _ _ => none) s ∧ ∀ i,
        (d i).getNNZ = some ((List.range n).countP (fun j => (s i (j + 1)).isSome)) ∧
        ∀ w t, 1 ≤ w → w ≤ n → s i w = some t →
          ∃ p, getPartition n nseg w = some p ∧ ((d i).get (p % nrank)).get w = some (some t) := by
  obtain ⟨out, D, T', P, a1, _, _, _, a5⟩ := DMat.ofEdges_spec hsrt gt hth hs0 hs0 hr hpfn how hlen hin
  obtain ⟨v0, b1, b2⟩ := newVec_rel (T := T) (n := n) hs0 hr
  obtain ⟨d, s, d1, d2, d3⟩ := runVars_spec a5 hin hs0 hr how hth env g ops hops 0 hsafe (fun _ => b2)
  exact ⟨out, D, v0, d, a1, b1, d1, s, d2, fun i => DVec.reads hs0 hr (d3 i).wf (d3 i).sem⟩

/-- An operand has a part that was never written and, for a product, is not sent to another rank. -/
def VarOp.Null (nseg : Nat) (sharedX sharedV : Nat → Prop) (u : Nat → Nat → PartUse) : VarOp E T → Prop
  | .apply _ i _ => ∃ p, p < nseg ∧ u i p = .never
  | .intersect _ i j _ => ∃ p, p < nseg ∧ (u i p = .never ∨ u j p = .never)
  | .mul _ _ i _ => ∃ p, p < nseg ∧ u i p = .never ∧ ¬ sharedX p
  | .mul3 _ _ i j _ => ∃ p, p < nseg ∧ (u i p = .never ∧ ¬ sharedX p ∨ u j p = .never ∧ ¬ sharedV p)
  | _ => False

/-- C88: with an operand of `Apply`, `IntersectReduce`, `SpMSpV` or `SpMSpV3` that has a part that was never written (and, in a
product, is not sent to another rank), the code dereferences a null pointer, in every program. -/
theorem vector_program_null [Nonempty T] (hsrt : srt.OK) (gt : Nat → Nat → Nat → TileFresh E) (hth : 0 < threads)
    (hs0 : 0 < nseg) (hr : 0 < nrank) (hpfn : ∀ i j, pfn j i nrank = some (ow i j))
    (how : ∀ i j, ow i j < nrank) (hlen : blobs.length = nrank) (hin : ∀ e ∈ blobs.flatten, InMat n n e)
    (env : Nat → MulEnv T T T) (g : Nat → Nat → Nat → Fresh T)
    (ops post : List (VarOp E T)) (hops : ∀ op ∈ ops, op.Valid n)
    (hsafe : AllSafe n nseg (SharedX nseg nrank ow) (SharedV nseg nrank ow) (fun w => getPartition n nseg w) blobs.flatten ops
      (fun _ _ => .never) (fun _ _ => none))
    (op : VarOp E T) (hnull : op.Null nseg (SharedX nseg nrank ow) (SharedV nseg nrank ow)
      (usesAfter (fun w => getPartition n nseg w) ops (fun _ _ => .never))) :
    ∃ out D v0, DMat.ofEdges n n nseg nseg nrank pfn srt gt threads blobs = some (out, D) ∧
      DVec.new n nseg nrank = some v0 ∧
      runVars env g threads nrank D 0 (ops ++ op :: post) (fun _ => v0) = none := by
  obtain ⟨out, D, T', P, a1, _, _, _, a5⟩ := DMat.ofEdges_spec hsrt gt hth hs0 hs0 hr hpfn how hlen hin
  obtain ⟨v0, b1, b2⟩ := newVec_rel (T := T) (n := n) hs0 hr
  obtain ⟨d, s, d1, d2, d3⟩ := runVars_spec a5 hin hs0 hr how hth env g ops hops 0 hsafe (fun _ => b2)
  refine ⟨out, D, v0, a1, b1, ?_⟩
  rw [runVars_append, d1, Option.bind_some]
  unfold runVars
  refine none_fails ?_
  have hp : ∀ v p, p < nseg → usesAfter (fun w => getPartition n nseg w) ops (fun _ _ => .never) v p = .never →
      ((d v).own nrank p).props = none := by
    intro v p hp hu
    have := (d3 v).parts p hp
    rw [hu] at this
    exact this
  cases op with
  | apply f i j =>
    obtain ⟨p, h1, h2⟩ := hnull
    show (DVec.apply _ _ (d i) (d j)).map _ = none
    rw [DVec.apply_null (d3 i).wf (d3 j).wf hr h1 (hp i p h1 h2)]
    rfl
  | intersect f i j k =>
    obtain ⟨p, h1, h2⟩ := hnull
    show (DVec.intersectReduce _ _ (d i) (d j) (d k)).map _ = none
    rw [DVec.intersectReduce_null (d3 i).wf (d3 j).wf (d3 k).wf hr h1 (h2.imp (hp i p h1) (hp j p h1))]
    rfl
  | on i o => exact hnull.elim
  | applySelf f i => exact hnull.elim
  | mul pm add i j =>
    obtain ⟨p, h1, h2, h3⟩ := hnull
    show (D.spmspv _ threads nrank _ add (d i) (d j)).map _ = none
    rw [DMat.spmspv_null a5 hs0 hr how hth _ _ add (d3 i).wf (d3 j).wf h1
      (fun i hi => Decidable.byContradiction fun hne => h3 ⟨i, hi, hne⟩) (hp i p h1 h2)]
    rfl
  | mul3 pm add i j k =>
    obtain ⟨p, h1, h2⟩ := hnull
    show (D.spmspv3 _ threads nrank _ add (d i) (d j) (d k)).map _ = none
    rw [DMat.spmspv3_null a5 hs0 hs0 hr how hth _ _ add (d3 i).wf (d3 j).wf (d3 k).wf
      (h2.imp (fun h => ⟨p, h1, fun i hi => Decidable.byContradiction fun hne => h.2 ⟨i, hi, hne⟩, hp i p h1 h.1⟩)
        (fun h => ⟨p, h1, fun j hj => Decidable.byContradiction fun hne => h.2 ⟨j, hj, hne⟩, hp j p h1 h.1⟩))]
    rfl

end

/-! ### Runs of programs -/

/-- Run a program with the matrix `es` on `nrank` ranks and read vector `v`: the number of values, and element 1 on the ranks. -/
def sampleVars (n nrank : Nat) (es : List (Edge Nat)) (ops : List (VarOp Nat Nat)) (v : Nat) :
    Option (Nat × List (Option (Option Nat))) :=
  do
    let (_, D) ← DMat.ofEdges n n nrank nrank nrank partitionFn1d Sorts.ins (fun _ _ _ => (LoadEnv.sample (E := Nat) 0 0).gA 0 0 0) 1
      (es :: List.replicate (nrank - 1) [])
    let d ← DVec.new n nrank nrank
    let d ← runVars (fun _ => MulEnv.sample 0 0 0) (fun _ _ _ => Fresh.sample 7) 1 nrank D 0 ops (fun _ => d)
    let k ← (d v).getNNZ
    some (k, (List.range nrank).map (fun r => ((d v).get r).get 1))

/-- `Apply` from a vector that was cleared. -/
def applyCleared : List (VarOp Nat Nat) := [.on 0 (.set 1 5), .on 0 .clear, .apply (· + 1) 0 1]

/-- `IntersectReduce` with an input that was cleared and an output that has a value. -/
def intersectCleared : List (VarOp Nat Nat) :=
  [.on 0 (.set 1 5), .on 1 (.set 1 7), .on 2 (.set 1 9), .on 0 .clear, .intersect (· + ·) 0 1 2]

/-- The full claim of C88 fails: `Apply` from a vector that was never set dereferences a null pointer; from a vector that was
cleared it copies the values that the vector had before; `IntersectReduce` with a cleared input leaves the old values of the
output.  Every outcome that the specification allows leaves the outputs empty. -/
theorem vector_program_false :
    sampleVars 3 1 sampleMulEdges [.apply (· + 1) 0 1] 1 = none ∧
    sampleVars 3 1 sampleMulEdges applyCleared 1 = some (1, [some (some 6)]) ∧
    (∀ s, VarSteps 3 sampleMulEdges applyCleared (fun _ _ => none) s → ∀ w, 1 ≤ w → w ≤ 3 → s 1 w = none) ∧
    sampleVars 3 1 sampleMulEdges intersectCleared 2 = some (1, [some (some 9)]) ∧
    ∀ s, VarSteps 3 sampleMulEdges intersectCleared (fun _ _ => none) s → ∀ w, 1 ≤ w → w ≤ 3 → s 2 w = none := by
  refine ⟨by decide +kernel, by decide +kernel, ?_, by decide +kernel, ?_⟩
  · intro s h w h1 h2
    cases h with
    | cons a1 h =>
    cases h with
    | cons a2 h =>
    cases h with
    | cons a3 h =>
    cases h
    have e1 := a1 1 w h1 h2
    have e2 := a2 0 w h1 h2
    have e2' := a2 1 w h1 h2
    have e3 := a3 1 w h1 h2
    simp [VecOp.spec] at e1 e2 e2' e3
    rw [e3, e2]
    simp [e2', e1]
  · intro s h w h1 h2
    cases h with
    | cons a1 h =>
    cases h with
    | cons a2 h =>
    cases h with
    | cons a3 h =>
    cases h with
    | cons a4 h =>
    cases h with
    | cons a5 h =>
    cases h
    have e4 := a4 0 w h1 h2
    have e5 := a5 2 w h1 h2
    simp [VecOp.spec] at e4 e5
    rw [e5, e4]
    rfl

/-- A program with all kinds of calls. -/
def sampleVarOps : List (VarOp Nat Nat) :=
  [.on 0 (.set 1 5), .on 0 (.set 3 2), .on 1 (.setAll 100), .mul (fun e x => e * x) (· + ·) 0 2, .apply (· + 1) 0 3,
   .applySelf (· * 2) 3, .on 4 (.set 1 1), .on 4 .clear, .intersect (· + ·) 3 4 5, .intersect (· + ·) 0 3 4,
   .mul3 (fun e x v => e * x + v) (· + ·) 0 1 2]

/-- The hypotheses of `vector_program_partial` for this program on one rank. -/
example : (∀ op ∈ sampleVarOps, op.Valid 3) ∧
    AllSafe 3 1 (SharedX 1 1 (fun i _ => i % 1)) (SharedV 1 1 (fun i _ => i % 1)) (fun w => getPartition 3 1 w)
      sampleMulEdges sampleVarOps (fun _ _ => .never) (fun _ _ => none) := by
  refine ⟨?_, ?_⟩
  · intro op h
    simp [sampleVarOps] at h
    rcases h with rfl | rfl | rfl | rfl | rfl | rfl | rfl | rfl | rfl | rfl | rfl <;> simp [VarOp.Valid, VecOp.Valid]
  have hp : ∀ p, p < 1 → p = 0 := fun p h => by omega
  refine ⟨trivial, fun s1 _ => ⟨trivial, fun s2 _ => ⟨trivial, fun s3 h3 => ⟨?_, fun s4 h4 => ⟨?_, fun s5 h5 => ⟨trivial, fun s6 h6 =>
    ⟨trivial, fun s7 h7 => ⟨trivial, fun s8 h8 => ⟨?_, fun s9 h9 => ⟨?_, fun s10 h10 => ⟨⟨?_, ?_, ?_⟩, fun _ _ => trivial⟩⟩⟩⟩⟩⟩⟩⟩⟩⟩⟩
  · intro p h
    obtain rfl := hp p h
    exact .inl (by decide)
  · intro p h
    obtain rfl := hp p h
    decide
  · intro p h
    obtain rfl := hp p h
    exact ⟨by decide, by decide, .inr (by decide)⟩
  · intro p h
    obtain rfl := hp p h
    exact ⟨by decide, by decide, .inl ⟨by decide, by decide⟩⟩
  · intro p h
    obtain rfl := hp p h
    exact .inl (by decide)
  · intro p h
    obtain rfl := hp p h
    exact .inl (by decide)
  · have e : ∀ w, 1 ≤ w → w ≤ 3 → s10 1 w = some 100 := by
      intro w w1 w2
      have e3 := h3 1 w w1 w2
      have e4 := h4 1 w w1 w2
      have e5 := h5 1 w w1 w2
      have e6 := h6 1 w w1 w2
      have e7 := h7 1 w w1 w2
      have e8 := h8 1 w w1 w2
      have e9 := h9 1 w w1 w2
      have e10 := h10 1 w w1 w2
      simp [VecOp.spec] at e3 e4 e5 e6 e7 e8 e9 e10
      rw [e10, e9, e8, e7, e6, e5, e4, e3]
    intro e' he _
    simp [sampleMulEdges] at he
    rcases he with rfl | rfl | rfl
    · rw [e _ (by decide) (by decide)]; rfl
    · rw [e _ (by decide) (by decide)]; rfl
    · rw [e _ (by decide) (by decide)]; rfl

/-- The hypotheses of `vector_program_null`: after the first seven calls vector 4 has been written and vector 5 not. -/
example : (VarOp.intersect (E := Nat) (T := Nat) (· + ·) 4 5 6).Null 1 (SharedX 1 1 (fun _ _ => 0)) (SharedV 1 1 (fun _ _ => 0)) (usesAfter (fun w => getPartition 3 1 w) (sampleVarOps.take 7)
      (fun _ _ => .never)) ∧
    sampleVars 3 1 sampleMulEdges (sampleVarOps.take 7) 4 = some (1, [some (some 1)]) ∧
    sampleVars 3 1 sampleMulEdges (sampleVarOps.take 7 ++ .intersect (· + ·) 4 5 6 :: [.on 5 (.setAll 0)]) 4 = none :=
  ⟨⟨0, by decide, .inr (by decide)⟩, by decide +kernel, by decide +kernel⟩

example : (VarOp.mul3 (E := Nat) (T := Nat) (fun e x v => e + x + v) (· + ·) 4 5 6).Null 1 (SharedX 1 1 (fun _ _ => 0))
      (SharedV 1 1 (fun _ _ => 0)) (usesAfter (fun w => getPartition 3 1 w) (sampleVarOps.take 7) (fun _ _ => .never)) ∧
    sampleVars 3 1 sampleMulEdges (sampleVarOps.take 7 ++ .mul3 (fun e x v => e + x + v) (· + ·) 4 5 6 :: []) 4 = none ∧
    sampleVars 3 1 sampleMulEdges (sampleVarOps.take 7 ++ .mul (fun e x => e + x) (· + ·) 5 6 :: []) 4 = none :=
  ⟨⟨0, by decide, .inr ⟨by decide, fun ⟨j, _, hne⟩ => hne (Nat.mod_one 0).symm⟩⟩, by decide +kernel, by decide +kernel⟩

example : sampleVars 3 1 sampleMulEdges sampleVarOps 2 = some (2, [some (some 104)]) ∧
    sampleVars 3 1 sampleMulEdges sampleVarOps 4 = some (2, [some (some 17)]) ∧
    sampleVars 3 2 sampleMulEdges (.on 3 (.setAll 0) :: .on 4 (.setAll 0) :: .on 0 (.setAll 0) :: sampleVarOps) 4 =
      some (3, [some (some 17), some none]) := by
  decide +kernel

end GraphMat
