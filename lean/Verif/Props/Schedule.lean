import Verif.Lemmas.Schedule
import Verif.Lemmas.App
import Verif.Props.Superstep
import Verif.Props.TopSort

/-!
# C12: every interleaving of the parallel loops; C50: marking the sources

C12 for a fixed number of partitions: the four kinds of parallel loop that a superstep runs on a rank (the two loops
of `intersect_dense_segment`, the product, the loop that applies the results) have no race, and every interleaving
of the accesses of their iterations leaves the memory in the state that the model's sequential loop computes, for
arbitrary reduce functions.  Each loop ends with the barrier of `omp parallel for`, so the loops do not overlap.
Missing (hence `_partial`): other thread counts, for which C12 is false (`thread_count_changes_result`).
-/
namespace GraphMat

variable {E T U V : Type}

/-- Generic part of C12: a loop without races has one outcome. -/
theorem race_free_loop_has_one_outcome {Loc : Type} [DecidableEq Loc] {W : Loc → Type} {L : Type}
    {tasks : Nat → List (Act Loc W L)} (rf : RaceFree tasks) {s t : List (Nat × Act Loc W L)}
    (hs : IsSchedule tasks s) (ht : IsSchedule tasks t) (st : ParState Loc W L) : parRun s st = parRun t st :=
  race_free_schedule rf hs ht st

theorem tile_of_rep {D : DMat E} {m n ntx nty nrank : Nat} {ow : Nat → Nat → Nat} {T' : Nat → Nat → Tile E}
    {P : Nat → Nat → Nat → List (Col E)} {all : List (Edge E)} (h : D.Rep m n ntx nty nrank ow T' P all)
    {M : RMat E} (hM : M ∈ D) {i j : Nat} {t : Tile E} (ht : M.tiles i j = some t) : ∃ P, t.Rep P := by
  rw [h.mat, List.mem_map] at hM
  obtain ⟨r, _, rfl⟩ := hM
  simp only [matOf] at ht
  split at ht
  · next hc =>
    injection ht with ht
    subst ht
    exact ⟨P i j, (h.tile i j hc.1 hc.2.1).1⟩
  · cases ht

/-- The tiles of a loaded graph, on all ranks and in both orientations. -/
def Graph.HasTile (G : Graph V E) (t : Tile E) : Prop := ∃ M, (M ∈ G.A ∨ M ∈ G.AT) ∧ ∃ i j, M.tiles i j = some t

theorem loaded_tile_rep {n nrank threads : Nat} (c : Cfg n nrank threads) (env : LoadEnv V E)
    (hsA : env.sA.OK) (hsT : env.sAT.OK) {blobs : List (List (Edge E))} (hb : blobs.length = nrank)
    (hin : ∀ es ∈ blobs, ∀ e ∈ es, e.Valid n) {out : List (List (Edge E))} {G : Graph V E}
    (hl : Graph.readEdgelist env threads nrank n n blobs = some (out, G)) {t : Tile E} (ht : G.HasTile t) :
    ∃ P, t.Rep P := by
  have hv : ∀ e ∈ blobs.flatten, e.Valid n := by
    intro e he
    rw [List.mem_flatten] at he
    obtain ⟨es, h1, h2⟩ := he
    exact hin es h1 e h2
  obtain ⟨out', G', TA, TT, PA, PT, h1, h2, _⟩ := Graph.readEdgelist_spec c env hsA hsT hb hv
  rw [hl] at h1
  injection h1 with h1
  injection h1 with h0 h1
  subst h1
  obtain ⟨M, hM, i, j, ht⟩ := ht
  rcases hM with hM | hM
  · exact tile_of_rep h2.A hM ht
  · exact tile_of_rep h2.AT hM ht

/-- C12, the product: take any tile of any loaded graph and arrays of the right sizes (no bits set behind the end).
Whatever `process_message` and `reduce` are, the iterations of the parallel loop of `my_spmspv` have no race, and
under every interleaving `y` ends up as the sequential loop leaves it.  If the program's functions write their
output completely, the sequential loop runs without a failing access. -/
theorem product_loop_any_schedule_partial {n nrank threads : Nat} (c : Cfg n nrank threads) (env : LoadEnv V E)
    (hsA : env.sA.OK) (hsT : env.sAT.OK) {blobs : List (List (Edge E))} (hb : blobs.length = nrank)
    (hin : ∀ es ∈ blobs, ∀ e ∈ es, e.Valid n) {out : List (List (Edge E))} {G : Graph V E}
    (hl : Graph.readEdgelist env threads nrank n n blobs = some (out, G)) {t : Tile E} (ht : G.HasTile t)
    (tmp : Nat → Nat → U) (mul : Nat → Nat → E → T → U → U) (add : U → U → U) {x : Arr T × Arr Word}
    (hx : POk t.n x) {y : Arr U × Arr Word} (hy : POk t.m y) :
    RaceFree (t.spmspvTasks tmp mul add x.1 x.2) ∧
    (∀ y', t.spmspv tmp mul add x.1 x.2 y = some y' →
      ∀ s, IsSchedule (t.spmspvTasks tmp mul add x.1 x.2) s → ∀ loc, (parRun s (yMem y, loc)).1 = yMem y') ∧
    ((∃ pm : E → T → U, ∀ p nz e x old, mul p nz e x old = pm e x) →
      ∃ y', t.spmspv tmp mul add x.1 x.2 y = some y') := by
  obtain ⟨P, hP⟩ := loaded_tile_rep c env hsA hsT hb hin hl ht
  have rf : RaceFree (t.spmspvTasks tmp mul add x.1 x.2) :=
    hP.raceFree hx (acts := fun p v => mulAddActs add (mul p v.1 v.2.2.1 v.2.2.2 (tmp p v.1)) v.2.1)
      (fun p => rfl) (fun p v a ha => mulAddActs_loc ha)
  refine ⟨rf, ?_, ?_⟩
  · intro y' h s hs loc
    exact (schedule_simulates (σ := Arr U × Arr Word) (κ := Nat × Nat × E × T) (mem := yMem)
      (g := fun p v st => mulAdd (mul p v.1) add (tmp p v.1) v.2.1 v.2.2.1 v.2.2.2 st)
      (acts := fun p v => mulAddActs add (mul p v.1 v.2.2.1 v.2.2.2 (tmp p v.1)) v.2.1) (c := fun _ => true)
      (obs := fun _ => true)
      (fun p v st st' s h => ⟨mulAdd_sim s h, true, rfl, rfl⟩)
      (items := fun p => (t.visits x.1 x.2 p).getD []) (fun p => rfl) (Tile.walk_visits h) rf hs loc
      (fun _ => rfl)).1
  · rintro ⟨pm, hm⟩
    unfold Tile.spmspv
    rw [hP.walk hx (F := fun row a x st => mulAdd (fun e x _ => pm e x) add (tmp 0 0) row a x st) (by
      intro p nz row a x st
      unfold mulAdd
      rw [hm])]
    obtain ⟨st', h1, _⟩ := fold_contrib (cap := t.m) (add := add) (xm := pview t.n x) (pm := fun _ => pm)
      (F := fun row a x st => mulAdd (fun e x _ => pm e x) add (tmp 0 0) row a x st)
      (fun row a x st hr hst => mulAdd_spec rfl hr hst) (allEnts t.np P) (fun x hx => (mem_allEnts_row hP hx).1) y hy
    exact ⟨st', h1⟩

/-- C12, the product with the receiver's property (`my_spmspv3`), likewise. -/
theorem product3_loop_any_schedule_partial {n nrank threads : Nat} (c : Cfg n nrank threads) (env : LoadEnv V E)
    (hsA : env.sA.OK) (hsT : env.sAT.OK) {blobs : List (List (Edge E))} (hb : blobs.length = nrank)
    (hin : ∀ es ∈ blobs, ∀ e ∈ es, e.Valid n) {out : List (List (Edge E))} {G : Graph V E}
    (hl : Graph.readEdgelist env threads nrank n n blobs = some (out, G)) {t : Tile E} (ht : G.HasTile t)
    (tmp : Nat → Nat → U) (mul : E → T → V → U → U) (add : U → U → U) {x : Arr T × Arr Word}
    (hx : POk t.n x) (vp : Arr V × Arr Word) (y : Arr U × Arr Word) :
    RaceFree (t.spmspv3Tasks tmp mul add x.1 x.2 vp.1) ∧
    (∀ y', t.spmspv3 tmp mul add x.1 x.2 vp.1 vp.2 y = some y' →
      ∀ s, IsSchedule (t.spmspv3Tasks tmp mul add x.1 x.2 vp.1) s → ∀ loc, (parRun s (yMem y, loc)).1 = yMem y') := by
  obtain ⟨P, hP⟩ := loaded_tile_rep c env hsA hsT hb hin hl ht
  have rf : RaceFree (t.spmspv3Tasks tmp mul add x.1 x.2 vp.1) :=
    hP.raceFree hx (acts := fun p v => mulAdd3Acts (mul v.2.2.1 v.2.2.2 (vp.1.get v.2.1)) add (tmp p v.1) v.2.1)
      (fun p => rfl) (fun p v a ha => mulAdd3Acts_loc ha)
  refine ⟨rf, ?_⟩
  intro y' h s hs loc
  exact (schedule_simulates (σ := Arr U × Arr Word) (κ := Nat × Nat × E × T) (mem := yMem)
    (g := fun p v st => mulAdd3 mul add (tmp p v.1) vp.1 vp.2 v.2.1 v.2.2.1 v.2.2.2 st)
    (acts := fun p v => mulAdd3Acts (mul v.2.2.1 v.2.2.2 (vp.1.get v.2.1)) add (tmp p v.1) v.2.1) (c := fun _ => true)
    (obs := fun _ => true)
    (fun p v st st' s h => ⟨mulAdd3_sim s h, true, rfl, rfl⟩)
    (items := fun p => (t.visits x.1 x.2 p).getD []) (fun p => rfl) (Tile.walk_visits h) rf hs loc
    (fun _ => rfl)).1

/-- C12, applying the results: the iterations of the loop over the words of `y` have no race, and under every
interleaving properties and activity end up as the sequential loop leaves them; `local_converged` (the conjunction
of the private copies) is also the same. -/
theorem apply_loop_any_schedule_partial (gp : GProg T U V E) {sy : Segment U} {sv sv' : Segment V} {sa sa' : Segment Bool}
    {lc lc' : Bool} (h : applyOneSegment gp sy sv sa lc = some (sv', sa', lc')) {y : Buffer U} {v : Buffer V}
    {a : Buffer Bool} (hy : sy.props = some y) (hv : sv.props = some v) (ha : sa.props = some a)
    (hsz : sy.numInts ≤ y.bits.size) :
    RaceFree (applyTasks gp y.value y.bits sy.numInts) ∧
    ∃ v' a', sv'.props = some v' ∧ sa'.props = some a' ∧
      ∀ s, IsSchedule (applyTasks gp y.value y.bits sy.numInts) s → ∀ loc, (∀ i, (loc i).conv = true) →
        (parRun s (aMem (v.value, a.value, a.bits, lc), loc)).1 = aMem (v'.value, a'.value, a'.bits, lc') ∧
        (lc' = true ↔ lc = true ∧ ∀ i, i < sy.numInts →
          ((parRun s (aMem (v.value, a.value, a.bits, lc), loc)).2 i).conv = true) := by
  refine ⟨applyTasks_raceFree gp y.value y.bits sy.numInts, ?_⟩
  unfold applyOneSegment at h
  simp only [Option.bind_eq_bind] at h
  rw [hy, hv, ha, Option.bind_some, Option.bind_some, Option.bind_some] at h
  cases hs : scanBits y.bits sy.numInts (v.value, a.value, a.bits, lc) (applyOne gp y.value) with
  | none => rw [hs] at h; cases h
  | some st =>
    rw [hs, Option.bind_some] at h
    injection h with h
    injection h with h1 h
    injection h with h2 h3
    refine ⟨{ v with value := st.1 }, { a with value := st.2.1, bits := st.2.2.1 }, by rw [← h1], by rw [← h2], ?_⟩
    intro s hsch loc hloc
    rw [scanBits_words hsz] at hs
    obtain ⟨e1, e2⟩ := schedule_simulates (σ := Arr V × Arr Bool × Arr Word × Bool) (κ := Nat) (mem := aMem)
      (g := fun _ idx st => applyOne gp y.value idx st)
      (acts := fun _ idx => applyActs gp (y.value.get idx) idx) (c := fun st => st.2.2.2) (obs := fun s => s.conv)
      (fun _ idx st st' s h => applyOne_sim s h) (items := fun i => wordBits (y.bits.get i) i) (fun i => rfl) hs
      (applyTasks_raceFree gp y.value y.bits sy.numInts) hsch loc hloc
    rw [← h3]
    exact ⟨e1, e2⟩

/-- A buffer of two words with the given bits and values. -/
def sampleBuffer {α : Type} (v : Nat → α) (w : Word) : Buffer α :=
  { uninit := false, nnz := 0, value := ⟨40, v⟩, bits := ⟨2, fun _ => w⟩, cdata := ⟨0, v⟩, cidx := ⟨0, id⟩, sdata := [] }

/-- A segment of 40 elements with that buffer. -/
def sampleSegment {α : Type} (v : Nat → α) (w : Word) : Segment α :=
  { capacity := 40, numInts := 2, props := some (sampleBuffer v w), received := [], pool := [] }

/-- A program that adds. -/
def sampleAdder : GProg Nat Nat Nat Nat where
  order := .out
  allVertices := false
  needsProp := false
  send := fun v _ => (true, v)
  process := fun t e _ _ => t + e
  reduce := Nat.add
  apply := fun u v => u + v
  ne := fun a b => a != b

/-- The hypotheses hold for segments of 40 vertices of which 3, 5, 35 and 37 received a message (two words, two
iterations with work); the loop runs and finds a change. -/
example : ((applyOneSegment sampleAdder (sampleSegment id 40#32) (sampleSegment id 255#32)
    (sampleSegment (fun _ => false) 0#32) true).map (fun r =>
      (r.1.props.map (fun b => b.value.toList.take 6), r.2.2))) =
      some (some [0, 1, 2, 6, 4, 10], false) := by decide +kernel

/-- C12, generating the messages: both loops of `intersect_dense_segment` have no race, and under every
interleaving the bits and then the values end up as the sequential loops leave them. -/
theorem message_loops_any_schedule_partial {A B C : Type} (op : A → B → C → C) (b1 : Buffer A) (b2 : Buffer B)
    (b3 : Buffer C) (ni : Nat) {bits3 : Arr Word} {value3 : Arr C}
    (h1 : combineWords (· &&& ·) b1.bits b2.bits b3.bits ni = some bits3) (hsz : ni ≤ bits3.size)
    (h2 : forBits bits3 0 ni b3.value (fun i v3 => do
      let x ← b1.value.read i
      let y ← b2.value.read i
      let old ← v3.read i
      v3.write i (op x y old)) = some value3) :
    RaceFree (combineTasks (U := C) (· &&& ·) b1.bits b2.bits ni) ∧
    RaceFree (intersectTasks (fun i old => op (b1.value.get i) (b2.value.get i) old) bits3 ni) ∧
    (∀ s, IsSchedule (combineTasks (U := C) (· &&& ·) b1.bits b2.bits ni) s → ∀ loc,
      (parRun s (yMem (b3.value, b3.bits), loc)).1 = yMem (b3.value, bits3)) ∧
    (∀ s, IsSchedule (intersectTasks (fun i old => op (b1.value.get i) (b2.value.get i) old) bits3 ni) s → ∀ loc,
      (parRun s (yMem (b3.value, bits3), loc)).1 = yMem (value3, bits3)) := by
  have rf1 := combineTasks_raceFree (U := C) (· &&& ·) b1.bits b2.bits ni
  have rf2 := intersectTasks_raceFree (fun i old => op (b1.value.get i) (b2.value.get i) old) bits3 ni
  refine ⟨rf1, rf2, ?_, ?_⟩
  · intro s hs loc
    unfold combineWords at h1
    rw [forLoop_range] at h1
    have h1' : (List.range ni).foldlM (fun (st : Arr C × Arr Word) i => [i].foldlM (fun st k =>
        ((b1.bits.read k).bind fun a => (b2.bits.read k).bind fun b => st.2.write k (a &&& b)).map
          (fun w => (st.1, w))) st) (b3.value, b3.bits) = some (b3.value, bits3) := by
      generalize List.range ni = l at h1
      generalize b3.bits = w at h1
      induction l generalizing w with
      | nil => injection h1 with h1; subst h1; rfl
      | cons i l ih =>
        rw [List.foldlM_cons] at h1 ⊢
        simp only [List.foldlM_cons, List.foldlM_nil, Option.bind_eq_bind, Option.pure_def] at h1 ⊢
        cases hw : (b1.bits.read i).bind fun a => (b2.bits.read i).bind fun b => w.write i (a &&& b) with
        | none => rw [hw] at h1; cases h1
        | some w' =>
          rw [hw, Option.bind_some] at h1
          simp only [Option.map_some, Option.bind_some]
          have := ih w' h1
          simp only [List.foldlM_cons, List.foldlM_nil, Option.bind_eq_bind, Option.pure_def] at this
          exact this
    refine (schedule_simulates (σ := Arr C × Arr Word) (κ := Nat) (mem := yMem)
      (g := fun _ k st => ((b1.bits.read k).bind fun a => (b2.bits.read k).bind fun b => st.2.write k (a &&& b)).map
          (fun w => (st.1, w)))
      (acts := fun _ k => [.write (fun _ => true) (.word k) (fun _ => b1.bits.get k &&& b2.bits.get k)])
      (c := fun _ => true) (obs := fun _ => true) ?_ (items := fun i => [i]) ?_ h1' rf1 hs loc (fun _ => rfl)).1
    · intro _ k st st' s h
      refine ⟨?_, true, rfl, rfl⟩
      cases ha : b1.bits.read k with
      | none => rw [ha] at h; cases h
      | some a =>
      cases hb : b2.bits.read k with
      | none => rw [ha, hb] at h; cases h
      | some b =>
        rw [ha, hb, Option.bind_some, Option.bind_some] at h
        rw [Arr.read_eq_some] at ha hb
        cases hw : st.2.write k (a &&& b) with
        | none => rw [hw] at h; cases h
        | some w =>
          rw [hw] at h
          injection h with h
          subst h
          rw [Arr.write_eq_some] at hw
          rw [hw.2, yMem_word]
          simp [runActs, Act.exec, ha.2, hb.2]
    · intro i
      unfold combineTasks
      simp
  · intro s hs loc
    rw [forBits_words hsz] at h2
    have h2' : (List.range ni).foldlM (fun (st : Arr C × Arr Word) i => (wordBits (bits3.get i) i).foldlM (fun st k =>
        ((b1.value.read k).bind fun x => (b2.value.read k).bind fun y => (st.1.read k).bind fun old =>
          st.1.write k (op x y old)).map (fun v => (v, st.2))) st) (b3.value, bits3) = some (value3, bits3) := by
      have inner : ∀ (l : List Nat) (v v' : Arr C), l.foldlM (fun (v : Arr C) k =>
          (b1.value.read k).bind fun x => (b2.value.read k).bind fun y => (v.read k).bind fun old =>
            v.write k (op x y old)) v = some v' →
          l.foldlM (fun (st : Arr C × Arr Word) k =>
            ((b1.value.read k).bind fun x => (b2.value.read k).bind fun y => (st.1.read k).bind fun old =>
              st.1.write k (op x y old)).map (fun v => (v, st.2))) (v, bits3) = some (v', bits3) := by
        intro l
        induction l with
        | nil => intro v v' h; injection h with h; subst h; rfl
        | cons k l ih =>
          intro v v' h
          rw [List.foldlM_cons] at h ⊢
          cases hv : (b1.value.read k).bind fun x => (b2.value.read k).bind fun y => (v.read k).bind fun old =>
            v.write k (op x y old) with
          | none => rw [hv] at h; cases h
          | some v1 =>
            rw [hv] at h
            exact ih v1 v' h
      generalize b3.value = v at h2
      generalize List.range ni = l at h2
      induction l generalizing v with
      | nil => injection h2 with h2; subst h2; rfl
      | cons i l ih =>
        rw [List.foldlM_cons] at h2 ⊢
        cases hv : (wordBits (bits3.get i) i).foldlM (fun (v : Arr C) k =>
          (b1.value.read k).bind fun x => (b2.value.read k).bind fun y => (v.read k).bind fun old =>
            v.write k (op x y old)) v with
        | none =>
          simp only [Option.bind_eq_bind] at h2
          rw [hv] at h2; cases h2
        | some v1 =>
          simp only [Option.bind_eq_bind] at h2
          rw [hv, Option.bind_some] at h2
          rw [inner _ _ _ hv]
          exact ih v1 h2
    refine (schedule_simulates (σ := Arr C × Arr Word) (κ := Nat) (L := YReg C) (mem := yMem)
      (g := fun _ k st => ((b1.value.read k).bind fun x => (b2.value.read k).bind fun y => (st.1.read k).bind fun old =>
          st.1.write k (op x y old)).map (fun v => (v, st.2)))
      (acts := fun _ k => [ .read (fun _ => true) (.val k) (fun s y => { s with y := y }),
        .write (fun _ => true) (.val k) (fun s => op (b1.value.get k) (b2.value.get k) s.y) ])
      (c := fun _ => true) (obs := fun _ => true) ?_ (items := fun i => wordBits (bits3.get i) i) (fun i => rfl) h2' rf2
      hs loc (fun _ => rfl)).1
    intro _ k st st' s h
    refine ⟨?_, true, rfl, rfl⟩
    cases ha : b1.value.read k with
    | none => rw [ha] at h; cases h
    | some a =>
    cases hb : b2.value.read k with
    | none => rw [ha, hb] at h; cases h
    | some b =>
    cases ho : st.1.read k with
    | none => rw [ha, hb, ho] at h; cases h
    | some old =>
      rw [ha, hb, ho, Option.bind_some, Option.bind_some, Option.bind_some] at h
      rw [Arr.read_eq_some] at ha hb ho
      cases hw : st.1.write k (op a b old) with
      | none => rw [hw] at h; cases h
      | some w =>
        rw [hw] at h
        injection h with h
        subst h
        rw [Arr.write_eq_some] at hw
        rw [hw.2, yMem_val]
        have e : yMem st (.val k) = st.1.get k := rfl
        simp [runActs, Act.exec, ha.2, hb.2, e, ho.2]

/-- The hypotheses hold for buffers of 40 elements. -/
example : ((combineWords (· &&& ·) (sampleBuffer id 44#32).bits (sampleBuffer id 104#32).bits (sampleBuffer id 1#32).bits 2).bind
    (fun bits3 => (forBits bits3 0 2 (sampleBuffer id 0#32).value (fun i v3 => do
      let x ← (sampleBuffer (fun i => 10 * i) 0#32).value.read i
      let y ← (sampleBuffer (fun i => 100 * i) 0#32).value.read i
      let old ← v3.read i
      v3.write i (x + y + old))).map (fun v => (bits3.toList, v.toList.take 7)))) =
      some ([40#32, 40#32], [0, 1, 2, 333, 4, 555, 6]) := by decide +kernel

/-- The numbers of accesses of the iterations of the product loop of the only tile of a small graph (64 vertices, all
with a message): two iterations have work, on native rows 1-32 and 33-64. -/
def sampleTaskSizes : Option (List Nat) := do
  let (_, G) ← Graph.readEdgelist (LoadEnv.sample (V := Nat) (E := Nat) 0 0) 1 1 64 64
    [[⟨2, 1, 5⟩, ⟨3, 1, 6⟩, ⟨1, 39, 9⟩, ⟨64, 64, 9⟩]]
  let M ← G.AT[0]?
  let t ← M.tiles 0 0
  some ((List.range t.np).map (fun p => (t.spmspvTasks (fun _ _ => 0) (fun _ _ e x _ => e + x) (· - ·)
    ⟨64, fun i => i⟩ ⟨2, fun _ => BitVec.allOnes 32⟩ p).length))

example : sampleTaskSizes.map (fun l => l.filter (· ≠ 0)) = some [15, 5] := by decide +kernel

/-- Arrays as in the hypotheses. -/
example : POk 64 ((⟨64, fun i => i⟩, ⟨2, fun _ => BitVec.allOnes 32⟩) : Arr Nat × Arr Word) :=
  ⟨rfl, rfl, fun i h1 h2 => by simp at h2; omega⟩

/-! ## C50 -/

/-- The accesses of one `setActive` run without interruption set the bit of the vertex and no other bit. -/
theorem setActs_alone (v : V) (i : Nat) (m : (l : SLoc) → SLoc.W V l) (r : SReg) (w : Nat) :
    (runActs (setActs v i) (m, r)).1 (.word w) = if w = i / 32 then m (.word w) ||| bitMask (i % 32) else m (.word w) := by
  have e : ∀ w : Word, w &&& bitMask (i % 32) ≠ 0#32 → w ||| bitMask (i % 32) = w := by
    intro w hw
    have hlt : i % 32 < 32 := Nat.mod_lt _ (by omega)
    have hb : w.getLsbD (i % 32) = true := by
      cases h : w.getLsbD (i % 32)
      · exact (hw ((and_mask_eq_zero hlt).mpr h)).elim
      · rfl
    apply BitVec.eq_of_getLsbD_eq
    intro k hk
    rw [BitVec.getLsbD_or, bitMask_getLsbD hlt]
    by_cases hki : k = i % 32
    · subst hki; simp [hb]
    · simp [hki]
  unfold setActs
  have hq := shr5 i
  have hr := and31 i
  generalize i >>> 5 = q at hq ⊢
  generalize i &&& 0x1F = k at hr ⊢
  rw [← hr] at e
  rw [← hq, ← hr]
  by_cases hw : w = q
  · subst hw
    by_cases hc : m (.word w) &&& bitMask k = 0#32
    · simp [runActs, Act.exec, hc]
    · simp [runActs, Act.exec, hc, e _ hc]
  · by_cases hc : m (.word q) &&& bitMask k = 0#32
    · simp [runActs, Act.exec, hc, hw]
    · simp [runActs, Act.exec, hc, hw]

/-- C50, as far as it is true: if the iterations of the marking loop run one at a time, in any order `order`, the bit
vector afterwards has exactly the bits of the vertices without incoming edges in addition to those set before. -/
theorem marking_one_at_a_time_partial {threads n : Nat} (source : Nat → Bool) {order : List Nat}
    (hall : ∀ v, v ∈ order ↔ 1 ≤ v ∧ v ≤ n) (m : (l : SLoc) → SLoc.W Bool l) (loc : Nat → SReg) (k : Nat) :
    ((parRun (order.flatMap (fun v => (markTasks threads n source v).map (fun a => (v, a)))) (m, loc)).1
        (.word (k / 32))).getLsbD (k % 32) = true ↔
      (m (.word (k / 32))).getLsbD (k % 32) = true ∨
        ∃ v, 1 ≤ v ∧ v ≤ n ∧ source v = true ∧ placeOf threads n v = some k := by
  have key : ∀ (l : List Nat) (st : ParState SLoc (SLoc.W Bool) SReg),
      ((parRun (l.flatMap (fun v => (markTasks threads n source v).map (fun a => (v, a)))) st).1
        (.word (k / 32))).getLsbD (k % 32) = true ↔ (st.1 (.word (k / 32))).getLsbD (k % 32) = true ∨
        ∃ v ∈ l, 1 ≤ v ∧ v ≤ n ∧ source v = true ∧ placeOf threads n v = some k := by
    intro l
    induction l with
    | nil => intro st; simp [parRun]
    | cons v l ih =>
      intro st
      rw [List.flatMap_cons, parRun_append, ih, parRun_task]
      have step : ((runActs (markTasks threads n source v) (st.1, st.2 v)).1 (.word (k / 32))).getLsbD (k % 32) = true ↔
          (st.1 (.word (k / 32))).getLsbD (k % 32) = true ∨
            (1 ≤ v ∧ v ≤ n ∧ source v = true ∧ placeOf threads n v = some k) := by
        unfold markTasks
        by_cases hc : 1 ≤ v ∧ v ≤ n ∧ source v = true
        · rw [if_pos hc]
          cases hp : placeOf threads n v with
          | none => simp [runActs]
          | some i =>
            simp only
            rw [setActs_alone]
            have hlt : i % 32 < 32 := Nat.mod_lt _ (by omega)
            by_cases hw : k / 32 = i / 32
            · rw [if_pos hw, BitVec.getLsbD_or, bitMask_getLsbD hlt, Bool.or_eq_true, decide_eq_true_iff]
              constructor
              · rintro (h | h)
                · exact Or.inl h
                · exact Or.inr ⟨hc.1, hc.2.1, hc.2.2, by congr 1; omega⟩
              · rintro (h | ⟨_, _, _, h⟩)
                · exact Or.inl h
                · injection h with h
                  exact Or.inr (by rw [h])
            · rw [if_neg hw]
              constructor
              · exact Or.inl
              · rintro (h | ⟨_, _, _, h⟩)
                · exact h
                · injection h with h
                  exact (hw (by rw [h])).elim
        · rw [if_neg hc]
          constructor
          · exact Or.inl
          · rintro (h | ⟨h1, h2, h3, _⟩)
            · exact h
            · exact (hc ⟨h1, h2, h3⟩).elim
      simp only
      rw [step]
      constructor
      · rintro ((h | h) | ⟨u, hu, h⟩)
        · exact Or.inl h
        · exact Or.inr ⟨v, List.mem_cons_self, h⟩
        · exact Or.inr ⟨u, List.mem_cons_of_mem _ hu, h⟩
      · rintro (h | ⟨u, hu, h⟩)
        · exact Or.inl (Or.inl h)
        · rcases List.mem_cons.mp hu with rfl | hu
          · exact Or.inl (Or.inr h)
          · exact Or.inr ⟨u, hu, h⟩
  rw [key]
  constructor
  · rintro (h | ⟨v, _, h⟩)
    · exact Or.inl h
    · exact Or.inr ⟨v, h⟩
  · rintro (h | ⟨v, h⟩)
    · exact Or.inl h
    · exact Or.inr ⟨v, (hall v).mpr ⟨h.1, h.2.1⟩, h⟩

/-- C50 is false: whenever two vertices without incoming edges share a word of the bit vector (and are the only such
vertices), some interleaving loses one of them: both read the word before either writes it. -/
theorem marking_can_lose_a_source {threads n : Nat} {source : Nat → Bool} {a b i j : Nat} (hab : a ≠ b)
    (hsrc : ∀ v, 1 ≤ v ∧ v ≤ n ∧ source v = true ↔ v = a ∨ v = b) (ha : placeOf threads n a = some i)
    (hb : placeOf threads n b = some j) (hij : i ≠ j) (hw : i / 32 = j / 32) (m : (l : SLoc) → SLoc.W Bool l)
    (hmi : (m (.word (i / 32))).getLsbD (i % 32) = false) (hmj : (m (.word (j / 32))).getLsbD (j % 32) = false)
    (loc : Nat → SReg) :
    ∃ s, IsSchedule (markTasks threads n source) s ∧
      ((parRun s (m, loc)).1 (.word (i / 32))).getLsbD (i % 32) = false := by
  have ta : markTasks threads n source a = setActs true i := by
    unfold markTasks
    rw [if_pos ((hsrc a).mpr (Or.inl rfl)), ha]
  have tb : markTasks threads n source b = setActs true j := by
    unfold markTasks
    rw [if_pos ((hsrc b).mpr (Or.inr rfl)), hb]
  have hi : i % 32 < 32 := Nat.mod_lt _ (by omega)
  have hj : j % 32 < 32 := Nat.mod_lt _ (by omega)
  refine ⟨((setActs true i).take 5).map (fun x => (a, x)) ++ ((setActs true j).take 5).map (fun x => (b, x)) ++
    (((setActs true i).drop 5).map (fun x => (a, x)) ++ ((setActs true j).drop 5).map (fun x => (b, x))), ?_, ?_⟩
  · intro v
    rw [proj_append, proj_append, proj_append, proj_task, proj_task, proj_task, proj_task]
    by_cases hva : a = v
    · subst hva
      rw [if_pos rfl, if_neg hab.symm, if_pos rfl, if_neg hab.symm, ta, List.append_nil, List.append_nil,
        List.take_append_drop]
    · by_cases hvb : b = v
      · subst hvb
        rw [if_neg hva, if_pos rfl, if_neg hva, if_pos rfl, tb, List.nil_append, List.nil_append,
          List.take_append_drop]
      · rw [if_neg hva, if_neg hvb, if_neg hva, if_neg hvb]
        unfold markTasks
        rw [if_neg]
        · rfl
        · intro h
          rcases (hsrc v).mp h with h | h
          · exact hva h.symm
          · exact hvb h.symm
  · rw [parRun_append, parRun_append, parRun_append, parRun_task, parRun_task, parRun_task, parRun_task]
    have hne : i % 32 ≠ j % 32 := by omega
    unfold setActs
    have hq1 := shr5 i
    have hq2 := shr5 j
    have hr1 := and31 i
    have hr2 := and31 j
    generalize i >>> 5 = q1 at hq1 ⊢
    generalize j >>> 5 = q2 at hq2 ⊢
    generalize i &&& 0x1F = k1 at hr1 ⊢
    generalize j &&& 0x1F = k2 at hr2 ⊢
    generalize i / 32 = d1 at hq1 hw hmi ⊢
    generalize j / 32 = d2 at hq2 hw hmj
    generalize i % 32 = e1 at hr1 hi hmi hne ⊢
    generalize j % 32 = e2 at hr2 hj hmj hne
    subst hq1 hr1 hr2 hw hq2
    have hmi' := (and_mask_eq_zero hi).mpr hmi
    have hmj' := (and_mask_eq_zero hj).mpr hmj
    have hba := hab.symm
    simp [runActs, Act.exec, hmi', hmj', hab, hba, bitMask_getLsbD hj, hne, hmi]

/-- Two vertices and no edges, one thread's worth of partitions: both vertices are sources, in one word. -/
example : (∀ v, 1 ≤ v ∧ v ≤ 2 ∧ (fun _ => true) v = true ↔ v = 1 ∨ v = 2) ∧ placeOf 1 2 1 = some 0 ∧
    placeOf 1 2 2 = some 1 ∧ (0 / 32 = 1 / 32) := by
  refine ⟨?_, by decide, by decide, by decide⟩
  intro v; simp; omega

end GraphMat
