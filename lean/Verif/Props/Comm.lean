import Verif.Lemmas.Comm
import Verif.Props.Load

/-!
# The exchanges complete

C26: the MPI calls of the ranks in supersteps, `applyToAllEdges`, `applyReduceAllVertices`, and when graphs are
loaded and saved and edge lists redistributed cannot deadlock, and every receive gets the message it is meant for.
-/
namespace GraphMat

variable {V E : Type}

/-- C26: take any number of ranks, any assignment of the tiles of `A` and `AT` to ranks that all ranks agree on, any
sequence of supersteps (all edge directions, with and without vertex properties), `applyToAllEdges`,
`applyReduceAllVertices`, `ReadEdgelist`, `ReadGraphMatBin`, `WriteGraphMatBin`, `saveVertexproperty`, `getNNZ`,
`load_edgelist`, `shuffle_edges`, `remove_duplicate_edges` and `randomize_edgelist_square`, and any numbers of entries
in the segments and of edges that are exchanged.  Then every rank gets through its loops (no metadata is used before
it is received); the messages a rank sends to another with a tag are, in order, the messages that rank expects from
it with that tag, and arrays of edges have the length the receiver expects; an execution has a bounded number of steps, whatever the implementation of MPI
buffers; and in every state reached, either all ranks have finished or some rank can proceed, even if from then on
no send returns before its receive is posted. -/
theorem exchanges_complete {D DT : DMat E} {k nrank : Nat} {owA owT : Nat → Nat → Nat} (h : 0 < nrank)
    (hA : D.Agree k nrank owA) (hT : DT.Agree k nrank owT) (v : Nat → MulVecs) (ops : List CommOp) :
    ∃ P : Nat → List (Call Label),
      (∀ r, r < nrank → ∃ A AT, D[r]? = some A ∧ DT[r]? = some AT ∧
        commCalls A AT nrank r v ops 0 (fun _ => []) = some (P r)) ∧
      Matched Label.tag P ∧
      ∀ t s, MpiSteps Label.tag P nrank false t MpiState.init s →
        t ≤ 2 * ((List.range nrank).map (fun r => (P r).length)).sum ∧
        (s.Done P nrank ∨ ∃ s', MpiStep Label.tag P nrank true s s') := by
  have hok := commEvs_ok h hA.own hT.own v ops 0
  refine ⟨viewAll (commEvs k owA owT nrank v ops 0), ?_, viewAll_matched _ hok, ?_⟩
  · intro r hr
    obtain ⟨A, a1, a2, a3, a4⟩ := hA.mats r hr
    obtain ⟨AT, b1, b2, b3, b4⟩ := hT.mats r hr
    exact ⟨A, AT, a1, b1, commCalls_spec h a2 a3 a4 b2 b3 b4 v hr ops 0⟩
  · intro t s hs
    have hf := hs.fits init_fits
    refine ⟨?_, ?_⟩
    · have := hs.work
      rw [init_work] at this
      have := hf.work (nrank := nrank)
      omega
    · by_cases hd : ∃ r, r < nrank ∧ s.pc r < (viewAll (commEvs k owA owT nrank v ops 0) r).length
      · exact Or.inr (view_progress _ hok s hd)
      · refine Or.inl (fun r hr => ?_)
        have h1 : ¬ s.pc r < (viewAll (commEvs k owA owT nrank v ops 0) r).length := fun h => hd ⟨r, hr, h⟩
        refine ⟨by have := (hf r).1; omega, ?_⟩
        cases hc : s.inCall r with
        | false => rfl
        | true => exact absurd ((hf r).2 hc) h1

/-- C26: from every state that is reached, all ranks can finish without any send being buffered. -/
theorem exchanges_can_finish {D DT : DMat E} {k nrank : Nat} {owA owT : Nat → Nat → Nat} (h : 0 < nrank)
    (hA : D.Agree k nrank owA) (hT : DT.Agree k nrank owT) (v : Nat → MulVecs) (ops : List CommOp)
    {P : Nat → List (Call Label)}
    (hP : ∀ r, r < nrank → ∃ A AT, D[r]? = some A ∧ DT[r]? = some AT ∧
        commCalls A AT nrank r v ops 0 (fun _ => []) = some (P r))
    {t : Nat} {s : MpiState} (hs : MpiSteps Label.tag P nrank false t MpiState.init s) :
    ∃ t' s', MpiSteps Label.tag P nrank true t' s s' ∧ s'.Done P nrank := by
  have hok := commEvs_ok h hA.own hT.own v ops 0
  have hPr : ∀ r, r < nrank → P r = viewAll (commEvs k owA owT nrank v ops 0) r := by
    intro r hr
    obtain ⟨A, a1, a2, a3, a4⟩ := hA.mats r hr
    obtain ⟨AT, b1, b2, b3, b4⟩ := hT.mats r hr
    obtain ⟨A', AT', c1, c2, c3⟩ := hP r hr
    rw [a1] at c1
    rw [b1] at c2
    cases c1
    cases c2
    rw [commCalls_spec h a2 a3 a4 b2 b3 b4 v hr ops 0] at c3
    exact (Option.some.inj c3).symm
  have hprog : ∀ s : MpiState, (∃ r, r < nrank ∧ s.pc r < (P r).length) → ∃ s', MpiStep Label.tag P nrank true s s' := by
    intro s hs
    obtain ⟨s', hs'⟩ := view_progress _ hok s (by
      obtain ⟨r, h1, h2⟩ := hs
      exact ⟨r, h1, by rw [← hPr r h1]; exact h2⟩)
    refine ⟨s', hs'.congr (fun r hr => (hPr r hr).symm) ?_⟩
    intro r c hr hc
    unfold viewAll at hc
    rw [List.mem_flatMap] at hc
    obtain ⟨e, he, hc⟩ := hc
    exact CommEv.view_bound (hok e he) hc
  have hf := hs.fits init_fits
  clear hs
  generalize hm : 2 * ((List.range nrank).map (fun r => (P r).length)).sum - s.work nrank = m
  induction m using Nat.strongRecOn generalizing s with
  | _ m ih =>
    by_cases hd : ∃ r, r < nrank ∧ s.pc r < (P r).length
    · obtain ⟨s1, h1⟩ := hprog s hd
      have hf1 := h1.fits hf
      have hw := h1.work
      have hb := hf1.work (nrank := nrank)
      obtain ⟨t', s', h2, h3⟩ := ih _ (by omega) hf1 rfl
      exact ⟨t' + 1, s', MpiSteps.head h1 h2, h3⟩
    · refine ⟨0, s, .zero s, fun r hr => ?_⟩
      have h1 : ¬ s.pc r < (P r).length := fun h => hd ⟨r, hr, h⟩
      refine ⟨by have := (hf r).1; omega, ?_⟩
      cases hc : s.inCall r with
      | false => rfl
      | true => exact absurd ((hf r).2 hc) h1

/-- The matrices of a graph the interface can build are agreed on by all ranks. -/
theorem Graph.Represents.agree {n nrank threads : Nat} (c : Cfg n nrank threads) {G : Graph V E}
    {es : List (Edge E)} {P : Nat → V} {A : Nat → Bool} (h : G.Represents n nrank threads es P A) :
    G.A.Agree nrank nrank (own2d nrank) ∧ G.AT.Agree nrank nrank (own2d nrank) := by
  obtain ⟨TA, TT, PA, PT, hv, hh, hp, ha⟩ := h
  have how : ∀ i j, own2d nrank i j < nrank := fun i j => (own2d_spec c.rpos i j).2
  have hm : ∀ (D : DMat E) (T : Nat → Nat → Tile E), D = (List.range nrank).map (matOf n n nrank nrank nrank (own2d nrank) T) →
      D.Agree nrank nrank (own2d nrank) := by
    intro D T hD
    refine ⟨fun r hr => ⟨matOf n n nrank nrank nrank (own2d nrank) T r, ?_, rfl, rfl, fun _ _ _ _ => rfl⟩, fun i j _ _ => how i j⟩
    rw [hD, List.getElem?_map, List.getElem?_range hr]
    rfl
  exact ⟨hm _ _ hh.A.mat, hm _ _ hh.AT.mat⟩

/-- C26 for the graphs the interface can build. -/
theorem graph_exchanges_complete {n nrank threads : Nat} (c : Cfg n nrank threads) {G : Graph V E}
    {es : List (Edge E)} {VP : Nat → V} {A : Nat → Bool} (h : G.Represents n nrank threads es VP A) (v : Nat → MulVecs)
    (ops : List CommOp) :
    ∃ P : Nat → List (Call Label),
      (∀ r, r < nrank → ∃ A AT, G.A[r]? = some A ∧ G.AT[r]? = some AT ∧
        commCalls A AT nrank r v ops 0 (fun _ => []) = some (P r)) ∧
      Matched Label.tag P ∧
      ∀ t s, MpiSteps Label.tag P nrank false t MpiState.init s →
        t ≤ 2 * ((List.range nrank).map (fun r => (P r).length)).sum ∧
        (s.Done P nrank ∨ ∃ s', MpiStep Label.tag P nrank true s s') :=
  exchanges_complete c.rpos (h.agree c).1 (h.agree c).2 v ops

/-! ### Examples -/

section
/-- one rank's part of a matrix of 2 by 2 tiles -/
private def exM (r : Nat) : RMat Int := ⟨5, 5, 2, 2, 2, r, fun i j => some (own2d 2 i j), fun _ _ => none⟩
private def exV : MulVecs :=
  ⟨⟨false, fun _ => 256, fun _ _ => 3⟩, ⟨true, fun _ => 256, fun _ _ => 7⟩, ⟨false, fun _ => 256, fun _ _ => 200⟩⟩

example : DMat.Agree [exM 0, exM 1] 2 2 (own2d 2) := by
  refine ⟨fun r hr => ?_, fun i j _ _ => (own2d_spec (by omega) i j).2⟩
  match r, hr with
  | 0, _ => exact ⟨_, rfl, rfl, rfl, fun _ _ _ _ => rfl⟩
  | 1, _ => exact ⟨_, rfl, rfl, rfl, fun _ _ _ _ => rfl⟩

/-- the calls of rank 0 in a superstep on two ranks -/
example : commCalls (exM 0) (exM 0) 2 0 (fun _ => exV) [.superstep true false true] 0 (fun _ => []) = some
    [.send 1 ⟨0, 1, 0, none⟩, .recv 1 ⟨0, 1, 1, none⟩,
     .isend 1 ⟨0, 1, 0, some 0⟩, .isend 1 ⟨0, 1, 0, some 1⟩, .isend 1 ⟨0, 1, 0, some 2⟩,
     .irecv 1 ⟨0, 1, 1, some 0⟩, .irecv 1 ⟨0, 1, 1, some 1⟩, .irecv 1 ⟨0, 1, 1, some 2⟩, .waitall,
     .recv 1 ⟨0, 2, 0, none⟩, .send 1 ⟨0, 2, 1, none⟩,
     .irecv 1 ⟨0, 2, 0, some 0⟩, .irecv 1 ⟨0, 2, 0, some 1⟩, .isend 1 ⟨0, 2, 1, some 0⟩, .isend 1 ⟨0, 2, 1, some 1⟩,
     .waitall, .coll] := rfl

/-- the calls of rank 1 when two ranks build a graph: it has 3 edges for rank 0 and gets 2 from it -/
example : commCalls (exM 1) (exM 1) 2 1 (fun _ => exV)
    [.readEdgelist (fun a b => if a = b then 7 else if a = 1 then 3 else 2) (fun a b => a + b)] 0 (fun _ => []) = some
    [.coll, .isend 0 ⟨0, 4, 1, none⟩, .isend 1 ⟨0, 4, 1, none⟩, .irecv 0 ⟨0, 4, 0, none⟩, .irecv 1 ⟨0, 4, 1, none⟩,
     .waitall, .coll, .isend 0 ⟨0, 5, 1, some 3⟩, .isend 1 ⟨0, 5, 1, some 7⟩, .irecv 0 ⟨0, 5, 0, some 2⟩,
     .irecv 1 ⟨0, 5, 1, some 7⟩, .waitall, .coll, .coll,
     .coll, .isend 0 ⟨1, 4, 1, none⟩, .isend 1 ⟨1, 4, 1, none⟩, .irecv 0 ⟨1, 4, 0, none⟩, .irecv 1 ⟨1, 4, 1, none⟩,
     .waitall, .coll, .isend 0 ⟨1, 5, 1, some 1⟩, .isend 1 ⟨1, 5, 1, some 2⟩, .irecv 0 ⟨1, 5, 0, some 1⟩,
     .irecv 1 ⟨1, 5, 1, some 2⟩, .waitall, .coll, .coll, .coll] := rfl

/-- The semantics does have deadlocks: two ranks that first send to each other are stuck when nothing is buffered. -/
example : ¬ ∃ s', MpiStep (L := Unit) (fun _ => 0) (fun r => [.send (1 - r) (), .recv (1 - r) ()]) 2 true
    ⟨fun _ => 0, fun _ => true⟩ s' := by
  rintro ⟨s', h⟩
  cases h with
  | enter r h1 h2 h3 => cases h2
  | ret r c h1 h2 h3 h4 =>
    match r, h1 with
    | 0, _ => cases h3; exact absurd (h4 rfl) (by decide)
    | 1, _ => cases h3; exact absurd (h4 rfl) (by decide)

/-- The same state can be left by an implementation that buffers. -/
example : ∃ s', MpiStep (L := Unit) (fun _ => 0) (fun r => [.send (1 - r) (), .recv (1 - r) ()]) 2 false
    ⟨fun _ => 0, fun _ => true⟩ s' :=
  ⟨_, .ret 0 (.send 1 ()) (by decide) rfl rfl (fun h => by cases h)⟩

/-- Tags matter: a receive with another tag than the message waits for ever. -/
example : ¬ ∃ s', MpiStep (L := Nat) id (fun r => if r = 0 then [] else [.isend 1 0, .recv 1 7]) 2 false
    ⟨fun r => r, fun r => r == 1⟩ s' := by
  rintro ⟨s', h⟩
  cases h with
  | enter r h1 h2 h3 =>
    match r, h1 with
    | 0, _ => exact absurd h3 (by decide)
    | 1, _ => cases h2
  | ret r c h1 h2 h3 h4 =>
    match r, h1 with
    | 0, _ => cases h2
    | 1, _ => cases h3; exact absurd (show 1 ≤ 0 from h4) (by decide)
end

end GraphMat
