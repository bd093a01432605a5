import Verif.Model.Bfs
import Verif.Lemmas.AppRun
import Verif.Lemmas.Paths
import Verif.Props.Run
import Verif.Props.Reduce

namespace GraphMat

theorem RTree.eval_last {U : Type} (t : RTree U) : t.eval (fun _ b => b) ∈ t.leaves := by
  induction t with
  | leaf u => simp [RTree.leaves, RTree.eval]
  | node l r _ ih => simp only [RTree.leaves, RTree.eval, List.mem_append]; exact .inr ih

theorem Reduces.last_mem {U : Type} {l : List U} {x : U} (h : Reduces (fun _ b => b) l (some x)) : x ∈ l := by
  rcases h with ⟨_, h⟩ | ⟨t, h1, h2⟩
  · cases h
  · injection h2 with h2
    rw [h2]
    exact h1.mem_iff.mp t.eval_last

/-! ### The invariant -/

theorem bfsProg_pure : Program.Pure bfsProg (fun _ v => v.id) (fun _ msg _ _ => msg) := by
  intro s
  exact ⟨fun _ _ => rfl, fun _ _ _ _ => rfl, fun _ _ _ _ _ => rfl⟩

/-- The state after `k` supersteps. -/
structure BfsInv (es : List (Edge Int)) (src n k : Nat) (P : Nat → BfsV) (A : Nat → Bool) (cur : BitVec 32) : Prop where
  cur : cur = BitVec.ofNat 32 (k + 1)
  id : ∀ v, 1 ≤ v → v ≤ n → (P v).id = BitVec.ofNat 64 v
  act : ∀ v, 1 ≤ v → v ≤ n → (A v = true ↔ IsHops es src v k)
  seen : ∀ v, 1 ≤ v → v ≤ n → ∀ j, j ≤ k → IsHops es src v j → (P v).depth = BitVec.ofNat 32 j ∧
    ∀ i, j = i + 1 → ∃ u : Nat, (P v).parent = BitVec.ofNat 64 u ∧ IsHops es src u i ∧
      ∃ e ∈ es, e.src = (u : Int) ∧ e.dst = (v : Int)
  unseen : ∀ v, 1 ≤ v → v ≤ n → (∀ j, j ≤ k → ¬ IsHops es src v j) → (P v).depth = MAXD

theorem ofNat_ne_MAXD {j : Nat} (h : j < 4294967295) : BitVec.ofNat 32 j ≠ MAXD := by
  intro he
  have := congrArg BitVec.toNat he
  simp only [MAXD, BitVec.toNat_ofNat, BitVec.toNat_allOnes] at this
  rw [Nat.mod_eq_of_lt (by omega)] at this
  omega

theorem BfsInv.step {es : List (Edge Int)} {src n k : Nat} (hv : ∀ e ∈ es, e.Valid n) (hk : k + 1 < 4294967295)
    {P P' : Nat → BfsV} {A A' : Nat → Bool} {cur : BitVec 32} {c : Bool} (h : BfsInv es src n k P A cur)
    (hs : StepRel (bfsProg.gp cur) (fun v => v.id) (fun msg _ _ => msg) false n es P A P' A' c) :
    BfsInv es src n (k + 1) P' A' (cur + 1#32) ∧ (c = true ↔ ∀ v, 1 ≤ v → v ≤ n → ¬ IsHops es src v (k + 1)) := by
  obtain ⟨res, r1, r2, r3, r4⟩ := hs
  have hinbox : ∀ d, 1 ≤ d → d ≤ n → ∀ r, r ∈ inbox EdgeDir.out (fun v : BfsV => v.id) (fun msg (_ : Int) _ => msg) es P A d →
      ∃ u : Nat, r = BitVec.ofNat 64 u ∧ IsHops es src u k ∧ ∃ e ∈ es, e.src = (u : Int) ∧ e.dst = (d : Int) := by
    intro d d1 d2 r hr
    simp only [inbox, outMsgs, List.mem_filterMap] at hr
    obtain ⟨e, he, hr⟩ := hr
    obtain ⟨a1, a2, _, _⟩ := hv e he
    by_cases hc : e.dst = (d : Int) ∧ A e.src.toNat = true
    · rw [if_pos hc] at hr
      injection hr with hr
      refine ⟨e.src.toNat, ?_, (h.act _ (by omega) (by omega)).mp hc.2, e, he, by omega, hc.1⟩
      rw [← hr, h.id _ (by omega) (by omega)]
    · rw [if_neg hc] at hr; cases hr
  have hempty : ∀ d, 1 ≤ d → d ≤ n → inbox EdgeDir.out (fun v : BfsV => v.id) (fun msg (_ : Int) _ => msg) es P A d = [] →
      ¬ IsHops es src d (k + 1) := by
    intro d d1 d2 he hh
    obtain ⟨u, e, hm, hs, hd, hu⟩ := hh.pred
    obtain ⟨a1, a2, _, _⟩ := hv e hm
    simp only [inbox] at he
    refine outMsgs_ne_nil.mpr ⟨e, hm, hd, ?_⟩ he
    rw [hs] at a1 a2 ⊢
    exact (h.act _ (by omega) (by omega)).mpr (by simpa using hu)
  have key : ∀ v, 1 ≤ v → v ≤ n →
      ((∃ j, j ≤ k ∧ IsHops es src v j) ∧ P' v = P v ∧ A' v = false ∧
        gotChanged (bfsProg.gp cur).apply (bfsProg.gp cur).ne (P v) (res v) = false) ∨
      ((∀ j, j ≤ k + 1 → ¬ IsHops es src v j) ∧ P' v = P v ∧ A' v = false ∧
        gotChanged (bfsProg.gp cur).apply (bfsProg.gp cur).ne (P v) (res v) = false) ∨
      (IsHops es src v (k + 1) ∧ A' v = true ∧
        gotChanged (bfsProg.gp cur).apply (bfsProg.gp cur).ne (P v) (res v) = true ∧
        ∃ u : Nat, P' v = { P v with depth := cur, parent := BitVec.ofNat 64 u } ∧ IsHops es src u k ∧
          ∃ e ∈ es, e.src = (u : Int) ∧ e.dst = (v : Int)) := by
    intro v v1 v2
    have e2 := r2 v v1 v2
    have e3 := r3 v v1 v2
    by_cases hj : ∃ j, j ≤ k ∧ IsHops es src v j
    · left
      obtain ⟨j, j1, j2⟩ := hj
      have hd : (P v).depth ≠ MAXD := by
        rw [(h.seen v v1 v2 j j1 j2).1]; exact ofNat_ne_MAXD (by omega)
      cases hr : res v with
      | none => rw [hr] at e2 e3; exact ⟨⟨j, j1, j2⟩, e2, e3, rfl⟩
      | some x =>
        rw [hr] at e2 e3
        have ha : (bfsProg.gp cur).apply x (P v) = P v := if_neg hd
        have hg : gotChanged (bfsProg.gp cur).apply (bfsProg.gp cur).ne (P v) (some x) = false := by
          simp only [gotChanged, ha]
          simp [bfsProg]
        refine ⟨⟨j, j1, j2⟩, ?_, ?_, hg⟩
        · rw [e2]; exact ha
        · rw [e3, hg]; rfl
    · have hj' : ∀ j, j ≤ k → ¬ IsHops es src v j := fun j h1 h2 => hj ⟨j, h1, h2⟩
      cases hr : res v with
      | none =>
        right; left
        rw [hr] at e2 e3
        have := hempty v v1 v2 (((r1 v v1 v2).none_iff).mp hr)
        refine ⟨?_, e2, e3, rfl⟩
        intro j hj
        rcases Nat.lt_or_ge j (k + 1) with h1 | h1
        · exact hj' j (by omega)
        · obtain rfl : j = k + 1 := by omega
          exact this
      | some x =>
        right; right
        rw [hr] at e2 e3
        have hred := r1 v v1 v2
        rw [hr] at hred
        obtain ⟨u, u1, u2, e, u3, u4, u5⟩ := hinbox v v1 v2 x hred.last_mem
        have hd := h.unseen v v1 v2 hj'
        have ha : (bfsProg.gp cur).apply x (P v) = { P v with depth := cur, parent := x } := if_pos hd
        have hne : MAXD ≠ cur := by rw [h.cur]; exact (ofNat_ne_MAXD hk).symm
        have hg : gotChanged (bfsProg.gp cur).apply (bfsProg.gp cur).ne (P v) (some x) = true := by
          simp only [gotChanged, ha]
          simp [bfsProg, hd, hne]
        refine ⟨?_, by rw [e3, hg]; rfl, hg, u, by rw [e2, ← u1]; exact ha, u2, e, u3, u4, u5⟩
        have hw : Walk es src v (k + 1) := .step e u2.1 u3 u4 u5
        obtain ⟨j, j1, j2⟩ := hw.hops
        rcases Nat.lt_or_ge j (k + 1) with h1 | h1
        · exact absurd j2 (hj' j (by omega))
        · obtain rfl : j = k + 1 := by omega
          exact j2
  refine ⟨⟨?_, ?_, ?_, ?_, ?_⟩, ?_⟩
  · rw [h.cur]
    apply BitVec.eq_of_toNat_eq
    simp
  · intro v v1 v2
    rcases key v v1 v2 with ⟨_, e, _⟩ | ⟨_, e, _⟩ | ⟨_, _, _, u, e, _⟩ <;> rw [e]
    · exact h.id v v1 v2
    · exact h.id v v1 v2
    · exact h.id v v1 v2
  · intro v v1 v2
    rcases key v v1 v2 with ⟨⟨j, j1, j2⟩, _, e, _⟩ | ⟨e1, _, e, _⟩ | ⟨e1, e, _⟩ <;> rw [e]
    · constructor
      · intro h; cases h
      · intro h; have := j2.unique h; omega
    · constructor
      · intro h; cases h
      · intro h; exact absurd h (e1 _ (Nat.le_refl _))
    · exact ⟨fun _ => e1, fun _ => rfl⟩
  · intro v v1 v2 j j1 j2
    rcases key v v1 v2 with ⟨⟨i, i1, i2⟩, e, _⟩ | ⟨e1, e, _⟩ | ⟨e1, _, _, u, e, u2, u3⟩
    · rw [e]
      have := i2.unique j2
      exact h.seen v v1 v2 j (by omega) j2
    · exact absurd j2 (e1 j j1)
    · have := j2.unique e1
      rw [e]
      refine ⟨by rw [this]; exact h.cur, ?_⟩
      intro i hi
      obtain rfl : i = k := by omega
      exact ⟨u, rfl, u2, u3⟩
  · intro v v1 v2 hn
    rcases key v v1 v2 with ⟨⟨i, i1, i2⟩, e, _⟩ | ⟨e1, e, _⟩ | ⟨e1, _⟩
    · exact absurd i2 (hn i (by omega))
    · rw [e]; exact h.unseen v v1 v2 (fun j hj => hn j (by omega))
    · exact absurd e1 (hn _ (Nat.le_refl _))
  · rw [r4]
    constructor
    · intro hq v v1 v2 hh
      rcases key v v1 v2 with ⟨⟨j, j1, j2⟩, _⟩ | ⟨e1, _⟩ | ⟨_, _, e, _⟩
      · have := j2.unique hh; omega
      · exact e1 _ (Nat.le_refl _) hh
      · rw [hq v v1 v2] at e; cases e
    · intro hq v v1 v2
      rcases key v v1 v2 with ⟨_, _, _, e⟩ | ⟨_, _, _, e⟩ | ⟨e1, _⟩
      · exact e
      · exact e
      · exact absurd e1 (hq v v1 v2)

/-- The invariant holds along a run; the last superstep changed nothing exactly if nobody is at distance `k`. -/
theorem BfsInv.steps {es : List (Edge Int)} {src n : Nat} (hv : ∀ e ∈ es, e.Valid n)
    {P P' : Nat → BfsV} {A A' : Nat → Bool} {s s' : BitVec 32} {k : Nat} {cs : List Bool}
    (h0 : BfsInv es src n 0 P A s)
    (hs : Steps bfsProg.gp bfsProg.every (fun _ v => v.id) (fun _ msg _ _ => msg) false n es P A s k P' A' s' cs)
    (hk : k < 4294967295) :
    BfsInv es src n k P' A' s' ∧ ∀ cs' b, cs = cs' ++ [b] → (b = true ↔ ∀ v, 1 ≤ v → v ≤ n → ¬ IsHops es src v k) := by
  induction hs with
  | zero => exact ⟨h0, fun cs' b h => by simp at h⟩
  | succ h1 h2 ih =>
    obtain ⟨i1, _⟩ := ih (by omega)
    obtain ⟨j1, j2⟩ := BfsInv.step hv hk i1 h2
    refine ⟨j1, ?_⟩
    intro cs' b h
    obtain ⟨_, h⟩ := List.append_inj' h rfl
    simp only [List.cons.injEq, and_true] at h
    rw [← h]; exact j2

end GraphMat
