import Verif.Model.AskProg
import Verif.Lemmas.MapReduce
import Verif.Lemmas.VecProg

/-!
# Reducing vectors
-/
namespace GraphMat

variable {V T : Type}

/-! ### Foreign copies stay without values -/

theorem mapReduceSegment_received {threads : Nat} {g : Fresh V} {map : V → T → T × V} {op : T → T → T} {tmp : Nat → T} {s : Segment V}
    {res : T} {r : Segment V × T} (h : mapReduceSegment threads g map op tmp s res = some r) : r.1.received = s.received := by
  unfold mapReduceSegment at h
  simp only [Option.bind_eq_bind, Option.bind_eq_some_iff] at h
  obtain ⟨s3, h1, _, _, _, _, h⟩ := h
  injection h with h
  subst h
  exact (Segment.initialize_received h1).trans (Segment.alloc_received g s)

theorem SpVec.mapReduce_frame {threads : Nat} {g : Nat → Fresh V} {map : V → T → T × V} {op : T → T → T} {tmp : Nat → Nat → T} {v : SpVec V}
    {res : T} {r : SpVec V × T} (h : v.mapReduce threads g map op tmp res = some r) : v.Frame r.1 := by
  unfold SpVec.mapReduce at h
  refine forLoop_some_inv (fun _ w => v.Frame w.1) (Nat.zero_le _) (.refl v) ?_ h
  intro i s s' _ _ hb hi
  simp only [Option.bind_eq_bind, Option.bind_eq_some_iff] at hb
  obtain ⟨o, h1, hb⟩ := hb
  cases o with
  | true =>
    rw [if_pos rfl] at hb
    simp only [Option.bind_eq_some_iff] at hb
    obtain ⟨sg, h2, x, h3, a, h4, hb⟩ := hb
    injection hb with hb
    subst hb
    refine hi.trans (SpVec.modifySeg_frame (p := i) (f := fun s0 => (mapReduceSegment threads (g i) map op (tmp i) s0 s.2).map Prod.fst) ?_
      (SpVec.owns_true h1) ?_)
    · intro s0 s1 e e'
      rw [Option.map_eq_some_iff] at e
      obtain ⟨r, e1, rfl⟩ := e
      exact (mapReduceSegment_received e1).trans e'
    · unfold SpVec.modifySeg
      simp only [h2, h3, h4, Option.bind_eq_bind, Option.bind_some, Option.map_some]
  | false =>
    rw [if_neg (by decide)] at hb
    injection hb with hb
    subst hb
    exact hi

theorem DVec.mapReduce_quiet {n nseg nrank : Nat} {threads : Nat} {g : Nat → Nat → Fresh V} {map : V → T → T × V} {op : T → T → T}
    {tmp : Nat → Nat → Nat → T} {d : DVec V} {init : Nat → T} {r : DVec V × T} (hd : d.WF n nseg nrank)
    (h : DVec.mapReduce threads g map op tmp d init = some r) (hq : d.Quiet nseg nrank) : r.1.Quiet nseg nrank := by
  unfold DVec.mapReduce at h
  simp only [Option.bind_eq_bind, Option.bind_eq_some_iff] at h
  obtain ⟨st, h1, h⟩ := h
  have hst : r.1 = st.1 := by
    split at h
    · cases h
    · injection h with h
      subst h
      rfl
  have key := forLoop_some_inv (fun k (st : DVec V × List T) => (∀ q, k ≤ q → st.1.get q = d.get q) ∧ ∀ q, (d.get q).Frame (st.1.get q))
    (Nat.zero_le _) ⟨fun _ _ => rfl, fun _ => .refl _⟩ (by
      intro i s s' _ _ hb ⟨e1, e2⟩
      simp only [Option.bind_eq_some_iff] at hb
      obtain ⟨v, b1, x, b2, d', b3, hb⟩ := hb
      injection hb with hb
      subst hb
      have hv : v = s.1.get i := by
        unfold Arr.read at b1
        split at b1
        · injection b1 with b1; exact b1.symm
        · cases b1
      have hw : d' = s.1.upd i x.1 := by
        unfold Arr.write at b3
        split at b3
        · injection b3 with b3; exact b3.symm
        · cases b3
      subst hv hw
      refine ⟨?_, ?_⟩
      · intro q hq
        simp only
        rw [Arr.upd_get_ne _ _ (by omega)]
        exact e1 q (by omega)
      · intro q
        simp only
        by_cases e : q = i
        · subst e
          rw [Arr.upd_get_self]
          have := SpVec.mapReduce_frame b2
          rw [e1 q (Nat.le_refl _)] at this
          exact this
        · rw [Arr.upd_get_ne _ _ e]
          exact e2 q) h1
  rw [hst]
  refine ⟨?_, ?_⟩
  · intro p hp
    exact (key.2 (p % nrank)).own p (hq.1 p hp)
  · intro q p hqr hp hne i
    have := (key.2 q).other p (by rw [(hd.rank q hqr).hrank, (hd.rank q hqr).hme]; exact hne)
    unfold DVec.cell
    simp only
    rw [this]
    exact hq.2 q p hqr hp hne i

/-! ### The values of a vector, listed by rank -/

theorem filterMap_toList {α β : Type} (F : α → Option β) (l : List α) : l.flatMap (fun j => (F j).toList) = l.filterMap F := by
  induction l with
  | nil => rfl
  | cons a l ih =>
    rw [List.flatMap_cons, ih, List.filterMap_cons]
    cases F a <;> rfl

theorem flatMap_cons_perm {β : Type} (l : List Nat) (e : β) (F : Nat → List β) :
    (l.flatMap (fun r => e :: F r)).Perm (List.replicate l.length e ++ l.flatMap F) := by
  induction l with
  | nil => exact .refl _
  | cons a l ih =>
    rw [List.flatMap_cons, List.flatMap_cons, List.length_cons, List.replicate_succ, List.cons_append, List.cons_append]
    refine .cons e ?_
    refine (List.Perm.append_left _ ih).trans ?_
    rw [← List.append_assoc, ← List.append_assoc]
    exact List.Perm.append_right _ List.perm_append_comm

theorem perm_values {n nseg nrank : Nat} (hs : 0 < nseg) (hr : 0 < nrank) {d : DVec V} {s : Nat → Option V}
    (h : ∀ w, 1 ≤ w → w ≤ n → d.sem n nseg nrank w = s w) (m : V → T) (e : T) :
    ((List.range nrank).flatMap (fun r => e :: d.items n nseg nrank r (fun _ v => m v))).Perm
      (List.replicate nrank e ++ (List.range n).filterMap (fun j => (s (j + 1)).map m)) := by
  refine (flatMap_cons_perm _ _ _).trans ?_
  rw [List.length_range]
  refine List.Perm.append_left _ ?_
  unfold DVec.items
  refine (perm_by_owner (List.range n) (fun j => ownerOf n nseg nrank (j + 1))
    (fun j => ((d.sem n nseg nrank (j + 1)).map (fun v => m v)).toList)
    (fun j hj => ownerOf_lt hs hr (by omega) (by have := List.mem_range.mp hj; omega))).trans ?_
  rw [← filterMap_toList]
  refine List.Perm.of_eq (flatMap_ext ?_)
  intro j hj
  rw [h (j + 1) (by omega) (by have := List.mem_range.mp hj; omega)]

end GraphMat
