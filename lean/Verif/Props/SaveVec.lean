import Verif.Lemmas.SaveVec
import Verif.Props.Vertex

/-!
# C43: `saveVertexproperty`
-/
namespace GraphMat

variable {V : Type}

theorem flatMap_single {α β : Type} (l : List α) (f : α → β) : l.flatMap (fun a => [f a]) = l.map f := by
  induction l with
  | nil => rfl
  | cons a l ih => rw [List.flatMap_cons, ih]; rfl

theorem flatMap_only {β : Type} {k r : Nat} (hr : r < k) (f : Nat → β) :
    (List.range k).flatMap (fun p => if p % k = r then [f p] else []) = [f r] := by
  have key : ∀ m, m ≤ k → (List.range m).flatMap (fun p => if p % k = r then [f p] else []) =
      if r < m then [f r] else [] := by
    intro m
    induction m with
    | zero => intro _; rfl
    | succ m ih =>
      intro hm
      rw [List.range_succ, List.flatMap_append, ih (by omega), List.flatMap_cons, List.flatMap_nil,
        List.append_nil, Nat.mod_eq_of_lt (by omega)]
      by_cases e : m = r
      · subst e
        rw [if_neg (by omega), if_pos rfl, if_pos (by omega)]; rfl
      · rw [if_neg e, List.append_nil]
        by_cases h : r < m
        · rw [if_pos h, if_pos (by omega)]
        · rw [if_neg h, if_neg (by omega)]
  rw [key k (Nat.le_refl _), if_pos hr]

/-- C43, the part that holds.  After any history of vertex operations, on any number of ranks, `saveVertexproperty`
succeeds; rank `r` writes the one file number `r`, whose header (if requested) gives the number of vertices and the number
of its lines; and the files together hold one line per vertex, in the order of the user's ids, with the value the user
assigned to that vertex.

Missing from C43: the id on the line.  The line of vertex `v` carries `v - 1`, see `saved_ids_are_shifted`. -/
theorem save_vertexproperty_partial {n nrank threads : Nat} (c : Cfg n nrank threads)
    (gv0 : Nat → Nat → Fresh V) (ga0 : Nat → Nat → Fresh Bool)
    (gv : Nat → Nat → Nat → Fresh V) (ga : Nat → Nat → Nat → Fresh Bool)
    (d : V) (A : Nat → Bool) (ops : List (VOp V)) (hops : ∀ op ∈ ops, op.Valid n)
    (gm : Nat → Nat → Nat → Edge V) (g : Nat → IngestFresh V) (hdr : Bool) :
    ∃ G0 G, VGraph.create n nrank threads gv0 ga0 (fun _ => d) = some G0 ∧
      G0.runOps gv ga 0 ops = some G ∧
      ∃ lines : Nat → List (Nat × V),
        G.saveVertexproperty gm g hdr = some ((List.range nrank).map (fun r =>
          [(r, (if hdr then some (n, (lines r).length) else none), lines r)])) ∧
        (List.range nrank).flatMap lines =
          (List.range n).map (fun j => (j, (VSpec.run ⟨fun _ => d, A⟩ ops).prop (j + 1))) := by
  obtain ⟨G0, a1, a2, a3, _⟩ := VGraph.create_spec c gv0 ga0 (fun _ => d)
  obtain ⟨G0', G, a1', b1, es, h1, h2⟩ := vertex_lists_are_complete c gv0 ga0 gv ga d A ops hops
  obtain rfl : G0 = G0' := Option.some.inj (a1.symm.trans a1')
  obtain ⟨G', b1', b2, _⟩ := VGraph.runOps_spec c gv ga ops 0 G0 ⟨fun _ => d, A⟩ a2 hops a3
  obtain rfl : G = G' := Option.some.inj (b1.symm.trans b1')
  refine ⟨G0, G, a1, b1, ?_⟩
  generalize (VSpec.run ⟨fun _ => d, A⟩ ops).prop = P at h2
  refine ⟨fun r => (List.range (bnd n nrank (r + 1) - bnd n nrank r)).map (fun i =>
    (i + bnd n nrank r, P (bnd n nrank r + i + 1))), ?_, ?_⟩
  · unfold VGraph.saveVertexproperty
    have e1 : (List.range G.nrank).mapM (fun r => do
        let v ← G.vp.read r
        let es ← v.getEdges
        es.mapM (fun e => do
          let src ← nativeToVertex G.threads G.nrank G.n e.src
          some { e with src := src })) = some ((List.range nrank).map es) := by
      rw [b2.hr]
      apply mapM_some
      intro r hr
      have := h1 r (List.mem_range.1 hr)
      unfold VGraph.getVertexEdgelist at this
      rw [b2.hr] at this
      exact this
    rw [e1, b2.hn, b2.hr]
    simp only [Option.bind_eq_bind, Option.bind_some]
    obtain ⟨d0, k1, k2, _⟩ := DVec.new_spec (α := V) n nrank nrank c.rpos
    rw [k1]
    simp only [Option.bind_some]
    obtain ⟨d1, l1, l2, l3⟩ := DVec.ingestEdgelist_spec k2 c.rpos c.rpos gm g (blob := es) (P := P) (by
        intro r hr e he
        have : e ∈ (List.range nrank).flatMap es := List.mem_flatMap.2 ⟨r, List.mem_range.2 hr, he⟩
        obtain ⟨j, hj, rfl⟩ := List.mem_map.1 (h2.mem_iff.1 this)
        exact ⟨j + 1, by omega, by have := List.mem_range.1 hj; omega, rfl, rfl⟩) (by
        intro w hw1 hw2
        have : (⟨((w - 1 + 1 : Nat) : Int), 1, P (w - 1 + 1)⟩ : Edge V) ∈ (List.range nrank).flatMap es :=
          h2.mem_iff.2 (List.mem_map.2 ⟨w - 1, List.mem_range.2 (by omega), rfl⟩)
        obtain ⟨r, hr, he⟩ := List.mem_flatMap.1 this
        exact ⟨r, List.mem_range.1 hr, _, he, by simp only; omega⟩)
    rw [l1]
    simp only [Option.bind_some]
    apply mapM_some
    intro r hr
    have hr := List.mem_range.1 hr
    rw [Arr.read_some (by rw [l2.size]; exact hr)]
    simp only [Option.bind_some]
    rw [SpVec.save_spec (l2.rank r hr) c.rpos (P := P) (by
      intro p hp hpm i hi
      have := l3 p hp i hi
      unfold DVec.own at this
      rwa [hpm] at this)]
    rw [flatMap_only hr (fun p => (p, (if hdr then some (n, bnd n nrank (p + 1) - bnd n nrank p) else none),
        (List.range (bnd n nrank (p + 1) - bnd n nrank p)).map (fun i =>
          (i + bnd n nrank p, P (bnd n nrank p + i + 1)))))]
    simp
  · have := flatMap_segments (n := n) c.rpos (fun w => [(w - 1, P w)])
    rw [flatMap_single] at this
    simp only [Nat.add_sub_cancel] at this
    rw [← this]
    apply flatMap_ext
    intro r _
    rw [flatMap_single]
    apply List.map_congr_left
    intro i _
    rw [Nat.add_comm i]

/-- C43 is false of the code: for every graph with at least one vertex, every history and every number of ranks, some line
carries the id 0, which is no vertex, and no line carries the id of the last vertex. -/
theorem saved_ids_are_shifted {n nrank threads : Nat} (c : Cfg n nrank threads) (hn : 1 ≤ n)
    (gv0 : Nat → Nat → Fresh V) (ga0 : Nat → Nat → Fresh Bool)
    (gv : Nat → Nat → Nat → Fresh V) (ga : Nat → Nat → Nat → Fresh Bool)
    (d : V) (ops : List (VOp V)) (hops : ∀ op ∈ ops, op.Valid n)
    (gm : Nat → Nat → Nat → Edge V) (g : Nat → IngestFresh V) (hdr : Bool) :
    ∃ G0 G files, VGraph.create n nrank threads gv0 ga0 (fun _ => d) = some G0 ∧
      G0.runOps gv ga 0 ops = some G ∧ G.saveVertexproperty gm g hdr = some files ∧
      (∃ x, (0, x) ∈ files.flatten.flatMap (fun f => f.2.2)) ∧
      ∀ x, (n, x) ∉ files.flatten.flatMap (fun f => f.2.2) := by
  obtain ⟨G0, G, a1, b1, lines, h1, h2⟩ :=
    save_vertexproperty_partial c gv0 ga0 gv ga d (fun _ => false) ops hops gm g hdr
  refine ⟨G0, G, _, a1, b1, h1, ?_⟩
  have e : ((List.range nrank).map (fun r =>
      [(r, (if hdr then some (n, (lines r).length) else none), lines r)])).flatten.flatMap (fun f => f.2.2) =
      (List.range nrank).flatMap lines := by
    rw [← List.flatMap_def, flatMap_single]
    generalize List.range nrank = l
    induction l with
    | nil => rfl
    | cons a l ih => rw [List.map_cons, List.flatMap_cons, List.flatMap_cons, ih]
  rw [e, h2]
  constructor
  · exact ⟨_, List.mem_map.2 ⟨0, List.mem_range.2 (by omega), rfl⟩⟩
  · intro x hx
    obtain ⟨j, hj, hjx⟩ := List.mem_map.1 hx
    have h3 : j = n := congrArg Prod.fst hjx
    have := List.mem_range.1 hj
    omega

/-- The hypotheses are met by a history on 3 ranks. -/
example : Cfg 1000 3 4 ∧ ∀ op ∈ ([.setProp 1000 1, .reset 2, .setProp 1 7] : List (VOp Nat)),
    op.Valid 1000 := by
  refine ⟨⟨by decide, by decide, by decide, by decide⟩, ?_⟩
  intro op h
  simp at h
  rcases h with rfl | rfl | rfl <;> simp [VOp.Valid]

end GraphMat
