import Verif.Lemmas.Views
import Verif.Props.LoopStep
import Verif.Props.LoopBuild
import Verif.Props.Loops

/-!
# C80: the parallel loops on processors with store buffers, and on weaker ones

C67 runs the accesses one after the other, each seen by everybody at once.  Here every thread has a buffer from which its
stores reach the memory later and, for different locations, in any order (`Spec/Weak.lean`).  Tasks without data races have
the same outcome, so all loops of C67 do; some of them are spelled out.  The same is shown for processors that also
reorder loads (`Spec/Views.lean`).
-/
namespace GraphMat

/-- Tasks that have no data race and the outcome `m'`, `res` when every store reaches the memory at once have the same
outcome with store buffers, whichever tasks the threads execute. -/
theorem store_buffers_race_free {Loc : Type} {W : Loc → Type} {α : Type} [DecidableEq Loc] {tasks : Nat → Code Loc W α}
    {m m' : (l : Loc) → W l} {res : Nat → α} (h : OneOutcome tasks m m' res) (thr : Nat → Nat) :
    OneOutcomeWeak thr tasks m m' res := h.weak thr

/-- The same when loads and stores are reordered. -/
theorem reordering_race_free {Loc : Type} {W : Loc → Type} {α : Type} [DecidableEq Loc] {tasks : Nat → Code Loc W α}
    {m m' : (l : Loc) → W l} {res : Nat → α} (h : OneOutcome tasks m m' res) (thr : Nat → Nat) :
    OneOutcomeViews thr tasks m m' res := h.views thr

variable {E T U V α : Type}

/-- `my_spmspv` on a DCSC tile. -/
theorem store_buffers_dcsc {g : TileFresh E} {threads : Nat} (ht : 0 < threads)
    {sort : List (TEdge E) → List (TEdge E)} (hsort : SortsBy compareDcsc sort) {edges : List (Edge E)} {m n rs cs : Nat}
    (hin : ∀ e ∈ edges, InTile m n rs cs e) {t : Tile E} (hb : Tile.build g threads sort edges m n rs cs = some t)
    {vals : Arr E} {tmp : Nat → Nat → U} {mul : Nat → Nat → E → T → U → U} {add : U → U → U} {xv : Arr T} {xb : Arr Word}
    {st st' : Arr U × Arr Word} (h : { t with vals := vals }.spmspv tmp mul add xv xb st = some st') (vv : Arr V)
    (vb : Arr Word) (thr : Nat → Nat) :
    OneOutcomeWeak thr (parFor t.np (dcscC tmp mul add)) (arrMem (dcA { t with vals := vals } xv xb vv vb st))
      (arrMem (dcA { t with vals := vals } xv xb vv vb st')) (fun _ => ()) :=
  (dcsc_tasks ht hsort hin hb h vv vb).weak thr

/-- `my_spmspv3` on a DCSC tile. -/
theorem store_buffers_dcsc3 {g : TileFresh E} {threads : Nat} (ht : 0 < threads)
    {sort : List (TEdge E) → List (TEdge E)} (hsort : SortsBy compareDcsc sort) {edges : List (Edge E)} {m n rs cs : Nat}
    (hin : ∀ e ∈ edges, InTile m n rs cs e) {t : Tile E} (hb : Tile.build g threads sort edges m n rs cs = some t)
    {vals : Arr E} {tmp : Nat → Nat → U} {mul : E → T → V → U → U} {add : U → U → U} {xv : Arr T} {xb : Arr Word}
    {vv : Arr V} {vb : Arr Word} {st st' : Arr U × Arr Word}
    (h : { t with vals := vals }.spmspv3 tmp mul add xv xb vv vb st = some st') (thr : Nat → Nat) :
    OneOutcomeWeak thr (parFor t.np (dcsc3C tmp mul add)) (arrMem (dcA { t with vals := vals } xv xb vv vb st))
      (arrMem (dcA { t with vals := vals } xv xb vv vb st')) (fun _ => ()) :=
  (dcsc3_tasks ht hsort hin hb h).weak thr

/-- The two products when loads and stores are reordered. -/
theorem reordering_products {g : TileFresh E} {threads : Nat} (ht : 0 < threads)
    {sort : List (TEdge E) → List (TEdge E)} (hsort : SortsBy compareDcsc sort) {edges : List (Edge E)} {m n rs cs : Nat}
    (hin : ∀ e ∈ edges, InTile m n rs cs e) {t : Tile E} (hb : Tile.build g threads sort edges m n rs cs = some t)
    {vals : Arr E} {tmp : Nat → Nat → U} {add : U → U → U} {xv : Arr T} {xb : Arr Word} {vv : Arr V} {vb : Arr Word}
    {st : Arr U × Arr Word} (thr : Nat → Nat) :
    (∀ (mul : Nat → Nat → E → T → U → U) st', { t with vals := vals }.spmspv tmp mul add xv xb st = some st' →
      OneOutcomeViews thr (parFor t.np (dcscC tmp mul add)) (arrMem (dcA { t with vals := vals } xv xb vv vb st))
        (arrMem (dcA { t with vals := vals } xv xb vv vb st')) (fun _ => ())) ∧
    ∀ (mul : E → T → V → U → U) st', { t with vals := vals }.spmspv3 tmp mul add xv xb vv vb st = some st' →
      OneOutcomeViews thr (parFor t.np (dcsc3C tmp mul add)) (arrMem (dcA { t with vals := vals } xv xb vv vb st))
        (arrMem (dcA { t with vals := vals } xv xb vv vb st')) (fun _ => ()) :=
  ⟨fun _ _ h => (dcsc_tasks ht hsort hin hb h vv vb).views thr, fun _ _ h => (dcsc3_tasks ht hsort hin hb h).views thr⟩

/-- The loop that applies the results to one segment, with the reduction of `local_converged`. -/
theorem store_buffers_update {gp : GProg T U V E} {sy : Segment U} {sv sv' : Segment V} {sa sa' : Segment Bool}
    {lc lc' : Bool} (h : applyOneSegment gp sy sv sa lc = some (sv', sa', lc')) (thr : Nat → Nat) :
    ∃ (by_ : Buffer U) (bv bv' : Buffer V) (ba ba' : Buffer Bool), sy.props = some by_ ∧ sv.props = some bv ∧
      sv'.props = some bv' ∧ sa.props = some ba ∧ sa'.props = some ba' ∧ ∃ res : Nat → Bool,
      OneOutcomeWeak thr (parForR true sy.numInts (updateC gp))
        (arrMem (updA by_.value by_.bits (bv.value, ba.value, ba.bits, lc)))
        (arrMem (updA by_.value by_.bits (bv'.value, ba'.value, ba'.bits, lc'))) res ∧
      OneOutcomeViews thr (parForR true sy.numInts (updateC gp))
        (arrMem (updA by_.value by_.bits (bv.value, ba.value, ba.bits, lc)))
        (arrMem (updA by_.value by_.bits (bv'.value, ba'.value, ba'.bits, lc'))) res ∧
      ∀ chunks, IsSplit sy.numInts chunks → lc' = (lc && redAnd res chunks) := by
  obtain ⟨a, b, b', d, d', h1, h2, h3, h4, h5, res, h6, h7⟩ := update_tasks h
  exact ⟨a, b, b', d, d', h1, h2, h3, h4, h5, res, h6.weak thr, h6.views thr, h7⟩

/-- Merging a received compressed segment. -/
theorem store_buffers_unionCompressed (add : α → α → α) {threads n : Nat} {cd : Arr α} {ci : Arr Nat} {v : Arr α}
    {b : Arr Word} {st : Arr α × Arr Word} (hn : n ≤ ci.size) (hinc : ∀ i j, i ≤ j → j < n → ci.get i ≤ ci.get j)
    (h : unionCompressed add threads cd ci n v b = some st) (thr : Nat → Nat) :
    OneOutcomeWeak thr (parFor (threads * 16) (unionC add (threads * 16) n)) (arrMem (segA cd ci (v, b)))
      (arrMem (segA cd ci st)) (fun _ => ()) :=
  (unionCompressed_tasks add hn hinc h).weak thr

/-- Expanding a received compressed segment. -/
theorem store_buffers_decompress {threads n : Nat} {b b' : Buffer α} {bits0 : Arr Word} {bounds : List (Nat × Nat)}
    (hinc : ∀ i j, i ≤ j → j < n → b.cidx.get i ≤ b.cidx.get j) (hn : b.nnz = (n : Int))
    (h0 : memsetZero b.bits.size b.bits = some bits0)
    (hb : decompressBounds b.cidx n (((n + threads - 1) / threads + 31) / 32 * 32) threads 0 = some bounds)
    (h : b.decompress threads = some b') (thr : Nat → Nat) :
    OneOutcomeWeak thr (parFor threads (decompressC bounds)) (arrMem (segA b.cdata b.cidx (b.value, bits0)))
      (arrMem (segA b.cdata b.cidx (b'.value, b'.bits))) (fun _ => ()) :=
  (decompress_tasks hinc hn h0 hb h).weak thr

/-- `shuffle_edges`: the counting loop and the distributing loop. -/
theorem store_buffers_shuffle {T R : Nat} (hT : 0 < T) (hR : 0 < R) (hRm : R ≤ IMAX) {el : EdgeList E} (hwf : el.WF)
    (hsrc : ∀ e ∈ el.list, 1 ≤ e.src ∧ e.src ≤ (IMAX : Int)) (g : Nat → Edge E) (thr : Nat → Nat) :
    ∃ hist off ted, shuffleHistogram R T el = some hist ∧ shuffleOffsets R T hist = some off ∧
      shuffleScatter g R T off el = some ted ∧
      (∀ off' st, OneOutcomeWeak thr (parFor T (histC R T el.nnz))
        (arrMem (shufA el.edges ⟨T * R, fun _ => 0⟩ off' st)) (arrMem (shufA el.edges hist off' st)) (fun _ => ())) ∧
      ∀ hist', ∃ wo, OneOutcomeWeak thr (parFor T (scatterC R T el.nnz))
        (arrMem (shufA el.edges hist' off (⟨el.nnz, g⟩, ⟨T * R, fun _ => 0⟩)))
        (arrMem (shufA el.edges hist' off (ted, wo))) (fun _ => ()) := by
  obtain ⟨hist, off, ted, h1, h2, h3, h4, h5⟩ := shuffle_tasks hT hR hRm hwf hsrc g
  refine ⟨hist, off, ted, h1, h2, h3, fun off' st => (h4 off' st).weak thr, fun hist' => ?_⟩
  obtain ⟨wo, h6⟩ := h5 hist'
  exact ⟨wo, h6.weak thr⟩

/-! ### Cases that meet the hypotheses -/

/-- A DCSC tile with several partitions. -/
example : ∃ (t : Tile Nat) (st : Arr Nat × Arr Word), 1 < t.np ∧ st.1.get 0 = 400 ∧ ∀ thr,
    OneOutcomeWeak thr
      (parFor t.np (dcscC (fun _ _ => 3) (fun _ _ e x _ => e * x) (· + ·) : Nat → DcCode Nat Nat Nat Nat Unit))
      (arrMem (dcA t (Arr.ofList 0 (List.replicate 17 1)) (Arr.ofList 0#32 [0xFFFFFFFF#32]) (Arr.ofList 0 [])
        (Arr.ofList 0#32 []) kerSampleY))
      (arrMem (dcA t (Arr.ofList 0 (List.replicate 17 1)) (Arr.ofList 0#32 [0xFFFFFFFF#32]) (Arr.ofList 0 [])
        (Arr.ofList 0#32 []) st)) (fun _ => ()) := by
  have h : ((Tile.build ⟨fun _ => 4, fun _ _ => 4⟩ 2 (insSort compareDcsc) fmtEdges 40 17 10 20).bind (fun t =>
      (t.spmspv (fun _ _ => 3) (fun _ _ e x _ => e * x) (· + ·) (Arr.ofList 0 (List.replicate 17 1))
        (Arr.ofList 0#32 [0xFFFFFFFF#32]) kerSampleY).map (fun st => (decide (1 < t.np), st.1.get 0)))) =
      some (true, 400) := by
    decide +kernel
  rw [Option.bind_eq_some_iff] at h
  obtain ⟨t, h1, h⟩ := h
  rw [Option.map_eq_some_iff] at h
  obtain ⟨st, h2, h4⟩ := h
  injection h4 with h4 h5
  exact ⟨t, st, of_decide_eq_true h4, h5, fun thr =>
    store_buffers_dcsc (by decide) insSort_dcsc fmtEdges_in h1 (vals := t.vals) h2 _ _ thr⟩

/-- The other loops: the cases beside `dcsc3_tasks`, `update_tasks`, `unionCompressed_tasks`, `decompress_tasks` and
`shuffle_tasks` meet the same hypotheses.  Here the one for `shuffle_edges`. -/
example (thr : Nat → Nat) : ∃ hist off ted, shuffleHistogram 3 2 EdgeList.sample = some hist ∧
    shuffleOffsets 3 2 hist = some off ∧ shuffleScatter (fun _ => ⟨0, 0, 0⟩) 3 2 off EdgeList.sample = some ted ∧
    (∀ off' st, OneOutcomeWeak thr (parFor 2 (histC 3 2 EdgeList.sample.nnz))
      (arrMem (shufA EdgeList.sample.edges ⟨6, fun _ => 0⟩ off' st))
      (arrMem (shufA EdgeList.sample.edges hist off' st)) (fun _ => ())) := by
  obtain ⟨hist, off, ted, h1, h2, h3, h4, _⟩ := store_buffers_shuffle (T := 2) (R := 3) (by decide) (by decide)
    (by unfold IMAX; decide) (el := EdgeList.sample) (shuffleSample_wf _ List.mem_cons_self)
    (shuffleSample_src _ List.mem_cons_self) (fun _ => ⟨0, 0, 0⟩) thr
  exact ⟨hist, off, ted, h1, h2, h3, h4⟩

/-! ### Store buffers are not idle -/

/-- Task 0 stores to location 0 and loads location 1, task 1 the other way round. -/
def sbTasks (i : Nat) : Code Nat (fun _ => Nat) Nat :=
  if i = 0 then .store 0 1 (.load 1 .ret) else if i = 1 then .store 1 1 (.load 0 .ret) else .ret 0

/-- Without race freedom the outcome does depend on the buffers: both tasks of `sbTasks` can load 0.  Without buffers this
never happens. -/
theorem store_buffers_matter :
    (∃ c, Weak.Reaches id (Weak.start (fun _ => 0) sbTasks) c ∧ c.Finished ∧ c.todo 0 = .ret 0 ∧ c.todo 1 = .ret 0) ∧
    ∀ s, ¬ ((Conc.run s ⟨fun _ => 0, sbTasks⟩).todo 0 = .ret 0 ∧ (Conc.run s ⟨fun _ => 0, sbTasks⟩).todo 1 = .ret 0) := by
  constructor
  · refine ⟨_, .head (.store _ 0 0 1 (.load 1 .ret) rfl) (.head (.store _ 1 1 1 (.load 0 .ret) rfl)
      (.head (.load _ 0 1 .ret rfl) (.head (.load _ 1 0 .ret rfl)
      (.head (.flush _ 0 [] [] ⟨0, 1⟩ rfl (by simp)) (.head (.flush _ 1 [] [] ⟨1, 1⟩ rfl (by simp)) .refl))))),
      ⟨?_, ?_⟩, rfl, rfl⟩
    · intro i
      match i with
      | 0 => exact ⟨0, rfl⟩
      | 1 => exact ⟨0, rfl⟩
      | i + 2 => exact ⟨0, rfl⟩
    · intro t
      match t with
      | 0 => rfl
      | 1 => rfl
      | t + 2 => rfl
  · intro s
    have key : ∀ (s : List Nat) (c : Conc Nat (fun _ => Nat) Nat), SbInv c → SbInv (Conc.run s c) := by
      intro s
      induction s with
      | nil => exact fun c h => h
      | cons i s ih => exact fun c h => ih _ (h.step i)
    exact (key s ⟨fun _ => 0, sbTasks⟩ ⟨Or.inl rfl, Or.inl rfl, fun h => by simp [sbTasks] at h, fun i hi =>
      ⟨0, by show sbTasks i = _; unfold sbTasks; rw [if_neg (by omega), if_neg (by omega)]⟩⟩).both

/-- Task 0 stores to location 0 and then to location 1, task 1 loads location 1 and then location 0. -/
def mpTasks (i : Nat) : Code Nat (fun _ => Nat) (Nat × Nat) :=
  if i = 0 then .store 0 1 (.store 1 1 (.ret (0, 0)))
  else if i = 1 then .load 1 (fun f => .load 0 (fun d => .ret (f, d))) else .ret (0, 0)

/-- Without race freedom the outcome does depend on reordering: task 1 of `mpTasks` can find the second store and not the
first one.  If every store is seen at once this never happens. -/
theorem reordering_matters :
    (∃ c, Views.Reaches id (Views.start (fun _ => 0) mpTasks) c ∧ c.Finished ∧ c.todo 1 = .ret (1, 0)) ∧
    ∀ s, (Conc.run s ⟨fun _ => 0, mpTasks⟩).todo 1 ≠ .ret (1, 0) := by
  constructor
  · refine ⟨_, .head (.store _ 0 0 1 (.store 1 1 (.ret (0, 0))) rfl 1 (by decide) rfl)
      (.head (.store _ 0 1 1 (.ret (0, 0)) rfl 1 (by decide) rfl)
      (.head (.load _ 1 1 (fun f => .load 0 (fun d => .ret (f, d))) rfl 1 1 (by decide) rfl)
      (.head (.load _ 1 0 (fun d => .ret (1, d)) rfl 0 0 (by decide) rfl) .refl))), ?_, rfl⟩
    intro i
    match i with
    | 0 => exact ⟨_, rfl⟩
    | 1 => exact ⟨_, rfl⟩
    | i + 2 => exact ⟨_, rfl⟩
  · intro s hs
    have key : ∀ (s : List Nat) (c : Conc Nat (fun _ => Nat) (Nat × Nat)), MpInv c → MpInv (Conc.run s c) := by
      intro s
      induction s with
      | nil => exact fun c h => h
      | cons i s ih => exact fun c h => ih _ (h.step i)
    have inv := key s ⟨fun _ => 0, mpTasks⟩ ⟨Or.inl rfl, Or.inl rfl, Or.inl rfl, fun i hi =>
      ⟨(0, 0), by show mpTasks i = _; unfold mpTasks; rw [if_neg (by omega), if_neg (by omega)]⟩⟩
    rcases inv.second with h | ⟨f, hf, h | ⟨d, h, hd⟩⟩
    · rw [hs] at h; cases h
    · rw [hs] at h; cases h
    · rw [hs] at h
      injection h with h
      injection h with h1 h2
      omega

end GraphMat
