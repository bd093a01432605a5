import Verif.Lemmas.FlightEdges
import Verif.Props.Comm

/-!
# Data handed to MPI is left alone until it has been waited for

C65: between a non-blocking call and the `MPI_Waitall` that completes it a rank neither writes what is being sent nor reads or
writes what is being received, releases neither, and every transfer lies within its array and is waited for.
-/
namespace GraphMat

variable {V E : Type}

/-- The numbers of parts that are announced for serialized segments fit the arrays of this rank; they do if all ranks use the same
number of threads. -/
def Say.Fits (say : Say) (c : FCfg) : Prop := ∀ v j r, c.ser v = true → (say.heard (v, j) r).parts ≤ c.threads * 16

/-- Operations a program can ask for: matrices have complete tile tables, the two vectors that are sent by `SpMSpV3` are different,
owners are sorted as the sorts before the exchange leave them, and edge lists are stored in their arrays with valid ids. -/
def FlightOp.Valid (c : FCfg) : FlightOp E → Prop
  | .spmspv M _ _ say => (∃ k ow, M.Table k ow) ∧ say.Fits c
  | .spmspv3 M x vp _ say => (∃ k ow, M.Table k ow) ∧ x ≠ vp ∧ say.Fits c
  | .applyEdges M _ say => (∃ k ow, M.Table k ow) ∧ say.Fits c
  | .fill _ _ _ => True
  | .look _ _ => True
  | .clear _ _ => True
  | .ingestMat assignment _ => assignment.Pairwise (· ≤ ·)
  | .ingestVec _ _ => True
  | .shuffle el _ => el.nnz ≤ el.edges.size ∧ ∀ e ∈ el.list, 1 ≤ e.src ∧ e.src ≤ (IMAX : Int)

theorem flightOp_runs {c : FCfg} (hr : 0 < c.nrank) (hrm : c.nrank ≤ IMAX) (ht : 0 < c.threads) {S : FSegs} {f : Flight} (h : AtRest c S f)
    (op : FlightOp E) (hv : op.Valid c) : RunsTo (op.run c S) f (fun S' f' => AtRest c S' f') := by
  cases op with
  | spmspv M x y say =>
    obtain ⟨⟨k, ow, hM⟩, hs⟩ := hv
    exact flightSpmspv_runs hr hM x y say h hs
  | spmspv3 M x vp y say =>
    obtain ⟨⟨k, ow, hM⟩, hx, hs⟩ := hv
    exact flightSpmspv3_runs hr hM x vp y hx say h hs
  | applyEdges M vp say =>
    obtain ⟨⟨k, ow, hM⟩, hs⟩ := hv
    exact flightApplyEdges_runs hr hM vp say h hs
  | fill v j nnz => exact fillTile_runs v j nnz h
  | look v j =>
    refine (look_runs h.pend (h.good.seg (v, j))).bind ?_
    rintro _ _ rfl
    exact RunsTo.pure h
  | clear v j =>
    exact RunsTo.pure (rests_update h (segClear_good h.ok h.pend (h.good.seg _))).rest
  | ingestMat A heard =>
    refine (owns_new A.length (Owns.start h.ok)).bind ?_
    rintro a f1 ⟨h1, p1, _⟩
    rw [h.pend] at p1
    refine (owns_write A.length h1 (by simp) p1).bind ?_
    rintro _ f1 rfl
    refine (ingestMat_runs heard h1 p1 hv).bind ?_
    rintro _ f2 ⟨h2, p2⟩
    refine (owns_delete (P := []) h2 p2).bind ?_
    rintro _ f3 ⟨h3, p3⟩
    exact RunsTo.pure ⟨h3.ok, p3, h.good.mono h3.keep⟩
  | ingestVec keys heard =>
    refine (owns_new keys.length (Owns.start h.ok)).bind ?_
    rintro a f1 ⟨h1, p1, _⟩
    rw [h.pend] at p1
    refine (owns_write keys.length h1 (by simp) p1).bind ?_
    rintro _ f1 rfl
    refine (ingestVec_runs heard h1 p1).bind ?_
    rintro _ f2 ⟨⟨L, h2⟩, p2⟩
    refine (owns_delete h2 p2).bind ?_
    rintro _ f3 ⟨h3, p3⟩
    exact RunsTo.pure ⟨h3.ok, p3, h.good.mono h3.keep⟩
  | shuffle el heard =>
    refine (owns_new el.nnz (Owns.start h.ok)).bind ?_
    rintro a f1 ⟨h1, p1, _⟩
    rw [h.pend] at p1
    refine (owns_write el.nnz h1 (by simp) p1).bind ?_
    rintro _ f1 rfl
    refine (shuffle_runs heard h1 p1 (shufflePlan_spec hr ht hv.1 (shuffleKey c.nrank)
      (fun e he => shuffleBin_eq hr hrm (hv.2 e he).1 (hv.2 e he).2))).bind ?_
    rintro b f2 ⟨h2, p2⟩
    refine (owns_delete (P := []) h2 p2).bind ?_
    rintro _ f3 ⟨h3, p3⟩
    exact RunsTo.pure ⟨h3.ok, p3, h.good.mono h3.keep⟩

/-- C65: take any number of ranks and threads, and any sequence of multiplications (with and without the receiver's vector),
`ApplyEdges`, functions that fill, read or clear segments, `ingestEdgelist` of matrices and of vectors, and `shuffle_edges`; any
tables of owners, any numbers of entries in the segments (so every choice between compressed, serialized and plain messages), and
any numbers announced by the other ranks.  The rank never breaks a rule of `Spec/Flight`: what is being sent is not written, what is
being received is neither read nor written, receives do not overlap other transfers, every transfer lies within a live array, no
array is released while in use, only live arrays are used, and `MPI_Waitall` is given requests that are under way; and at the end
no transfer is left. -/
theorem transfers_left_alone (c : FCfg) (hr : 0 < c.nrank) (hrm : c.nrank ≤ IMAX) (ht : 0 < c.threads) (cap : Nat × Nat → Nat)
    (ops : List (FlightOp E)) (hv : ∀ op ∈ ops, op.Valid c) :
    ∃ S f, flightRun c ops (FSegs.fresh cap) Flight.start = some (S, f) ∧ f.pending = [] := by
  have h0 : AtRest c (FSegs.fresh cap) Flight.start := by
    refine ⟨⟨by simp [Flight.start], by simp [Flight.start]⟩, rfl, ⟨fun κ => ⟨?_, ?_, ?_⟩, ?_⟩⟩
    · simp [FSegs.fresh, FSeg.ids, FSeg.bufs]
    · simp [FSegs.fresh, FSeg.bufs]
    · simp [FSegs.fresh]
    · simp [FSegs.fresh, FSeg.ids, FSeg.bufs]
  obtain ⟨S, f, h1, _, h2⟩ := foldlM_runs (p := fun S (op : FlightOp E) => op.run c S)
    (I := fun rem S f => (∀ op ∈ rem, op.Valid c) ∧ AtRest c S f) (by
      rintro op rem S f ⟨a1, a2⟩
      refine (flightOp_runs hr hrm ht a2 op (a1 op List.mem_cons_self)).mono ?_
      exact fun _ _ h => ⟨fun o ho => a1 o (List.mem_cons_of_mem _ ho), h⟩) ops (FSegs.fresh cap) Flight.start ⟨hv, h0⟩
  exact ⟨S, f, h1, h2.pend⟩

/-- Every part of such a sequence ends with nothing under way: the transfers of an operation end with it. -/
theorem transfers_end_with_operation (c : FCfg) (hr : 0 < c.nrank) (hrm : c.nrank ≤ IMAX) (ht : 0 < c.threads) (cap : Nat × Nat → Nat)
    (before after : List (FlightOp E)) (hv : ∀ op ∈ before ++ after, op.Valid c) :
    ∃ S f, flightRun c before (FSegs.fresh cap) Flight.start = some (S, f) ∧ f.pending = [] ∧
      ∃ S' f', flightRun c after S f = some (S', f') ∧ f'.pending = [] := by
  obtain ⟨S', f', h1, h2⟩ := transfers_left_alone c hr hrm ht cap (before ++ after) hv
  obtain ⟨S, f, h3, h4⟩ := transfers_left_alone c hr hrm ht cap before (fun op ho => hv op (List.mem_append.mpr (Or.inl ho)))
  refine ⟨S, f, h3, h4, S', f', ?_, h2⟩
  unfold flightRun at h1 h3 ⊢
  rw [List.foldlM_append] at h1
  change (before.foldlM (fun S op => FlightOp.run c S op) (FSegs.fresh cap) Flight.start).bind
    (fun x => after.foldlM (fun S op => FlightOp.run c S op) x.1 x.2) = _ at h1
  rw [h3] at h1
  exact h1

/-- The matrices of a graph built by the interface have complete tile tables on every rank. -/
theorem Graph.Represents.table {n nrank threads : Nat} (c : Cfg n nrank threads) {G : Graph V E}
    {es : List (Edge E)} {P : Nat → V} {A : Nat → Bool} (h : G.Represents n nrank threads es P A) {r : Nat} (hr : r < nrank) :
    (∃ M, G.A[r]? = some M ∧ M.Table nrank (own2d nrank)) ∧ ∃ M, G.AT[r]? = some M ∧ M.Table nrank (own2d nrank) := by
  obtain ⟨h1, h2⟩ := h.agree c
  obtain ⟨M, a1, a2, a3, a4⟩ := h1.mats r hr
  obtain ⟨N, b1, b2, b3, b4⟩ := h2.mats r hr
  exact ⟨⟨M, a1, ⟨a2, a3, a4⟩⟩, ⟨N, b1, ⟨b2, b3, b4⟩⟩⟩

/-! ### Samples -/

section

/-- A matrix of two ranks, rank 0. -/
def flightM : RMat Nat := ⟨4, 4, 2, 2, 2, 0, fun i j => some ((i + j) % 2), fun _ _ => none⟩

/-- Rank 0 of two; vector 7 is serialized. -/
def flightC : FCfg := ⟨2, fun v => v == 7, 2, 0⟩

/-- Announcements. -/
def flightSay : Say := ⟨fun _ => 3, fun _ => 3, fun _ => 40, fun _ => 2, fun _ _ => ⟨3, 50, 32⟩⟩

/-- A list of edges. -/
def flightEl : EdgeList Nat := ⟨Arr.ofList ⟨1, 1, 0⟩ [⟨1, 2, 5⟩, ⟨2, 1, 6⟩, ⟨3, 3, 7⟩], 3, 3, 3⟩

theorem flightM_table : flightM.Table 2 (fun i j => (i + j) % 2) := ⟨rfl, rfl, fun _ _ _ _ => rfl⟩

/-- a program to which the theorem applies: shuffling, loading, multiplications with plain and serialized vectors -/
def flightProgram : List (FlightOp Nat) :=
  [.shuffle flightEl (fun r => r + 1), .ingestMat [0, 0, 1] (fun _ => 2), .ingestVec [1, 0, 1] (fun r => r),
   .fill 1 0 3, .spmspv flightM 1 2 flightSay, .spmspv3 flightM 7 1 2 flightSay, .spmspv flightM 1 7 flightSay, .clear 2 0,
   .applyEdges flightM 1 flightSay, .look 1 0]

example : ∃ S f, flightRun flightC flightProgram (FSegs.fresh (fun _ => 100)) Flight.start = some (S, f) ∧ f.pending = [] := by
  refine transfers_left_alone flightC (by decide) (by decide) (by decide) _ _ ?_
  have hs : flightSay.Fits flightC := fun _ _ _ _ => by show 32 ≤ 2 * 16; decide
  intro op ho
  simp only [flightProgram, List.mem_cons, List.not_mem_nil, or_false] at ho
  rcases ho with rfl | rfl | rfl | rfl | rfl | rfl | rfl | rfl | rfl | rfl
  · exact ⟨by decide, by decide⟩
  · show [0, 0, 1].Pairwise (· ≤ ·); decide
  · trivial
  · trivial
  · exact ⟨⟨2, _, flightM_table⟩, hs⟩
  · exact ⟨⟨2, _, flightM_table⟩, by decide, hs⟩
  · exact ⟨⟨2, _, flightM_table⟩, hs⟩
  · trivial
  · exact ⟨⟨2, _, flightM_table⟩, hs⟩
  · trivial

/-- the run by evaluation: how many arrays are live and how many requests were made -/
example : (flightRun flightC flightProgram (FSegs.fresh (fun _ => 100)) Flight.start).map
    (fun x => (x.2.live.length, x.2.nextReq, x.2.pending.length)) = some (58, 60, 0) := by decide +kernel

/-- the rules do reject: decompressing what has not been waited for -/
example : ((do
    let s ← FSeg.recvNnz 2 ⟨3, 50, 32⟩ ⟨100, none, none, [], [], []⟩
    let (s, _) ← s.recvSegment true
    s.decompress true : FlightM Unit) Flight.start).isNone = true := by decide +kernel

/-- the same after waiting -/
example : ((do
    let s ← FSeg.recvNnz 2 ⟨3, 50, 32⟩ ⟨100, none, none, [], [], []⟩
    let (s, q) ← s.recvSegment true
    waitall q
    s.decompress true : FlightM Unit) Flight.start).isSome = true := by decide +kernel

/-- compressing again what is being sent -/
example : ((do
    let s ← FSeg.compress 2 false 3 3 0 ⟨100, none, none, [], [], []⟩
    let _ ← s.sendSegment false
    let _ ← s.compress 2 false 3 3 0 : FlightM Unit) Flight.start).isNone = true := by decide +kernel

/-- two receives into one buffer -/
example : ((do
    let s ← FSeg.recvNnz 2 ⟨3, 50, 32⟩ ⟨100, none, none, [], [], []⟩
    let (s, _) ← s.recvSegment false
    let _ ← s.recvSegment false : FlightM Unit) Flight.start).isNone = true := by decide +kernel

/-- The hypothesis on the numbers of parts is needed: a rank with 1 thread that gets a serialized segment from a rank with 2 threads
(32 parts) receives 33 positions into an array of 17. -/
theorem transfers_threads_false : ¬ ∀ (c : FCfg) (ops : List (FlightOp Nat)), 0 < c.nrank → c.nrank ≤ IMAX → 0 < c.threads →
    (∀ op ∈ ops, ∀ c' : FCfg, c'.nrank = c.nrank → 2 ≤ c'.threads → op.Valid c') →
    (flightRun c ops (FSegs.fresh (fun _ => 100)) Flight.start).isSome := by
  intro h
  have h1 := h ⟨1, fun v => v == 7, 2, 0⟩ [.spmspv flightM 7 2 flightSay] (by decide) (by decide) (by decide) (by
    intro op ho c' _ hc
    rw [List.mem_singleton] at ho
    subst ho
    refine ⟨⟨2, _, flightM_table⟩, fun _ _ _ _ => ?_⟩
    show 32 ≤ c'.threads * 16
    omega)
  have h2 : (flightRun ⟨1, fun v => v == 7, 2, 0⟩ [.spmspv flightM 7 2 flightSay] (FSegs.fresh (fun _ => 100)) Flight.start).isSome =
      false := by decide +kernel
  rw [h2] at h1
  simp at h1

end

end GraphMat
