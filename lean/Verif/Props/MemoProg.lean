import Verif.Lemmas.MemoMul

/-!
# What programs that use vectors do, without any condition (C91)
-/
namespace GraphMat

variable {E T : Type}

section

variable {D : DMat E} {n nseg nrank : Nat} {ow : Nat → Nat → Nat} {T' : Nat → Nat → Tile E}
  {P : Nat → Nat → Nat → List (Col E)} {all : List (Edge E)}

theorem MemoRel.never {d : DVec T} {m : Memo T} (h : MemoRel n nseg nrank d m) (hw : ¬ m.written nseg = true) :
    ∃ p, p < nseg ∧ (d.own nrank p).props = none := by
  rw [Memo.written_iff] at hw
  push Not at hw
  obtain ⟨p, hp, hu⟩ := hw
  have := h.parts p hp
  rw [hu] at this
  exact ⟨p, hp, this⟩

/-- One call. -/
theorem VarOp.exec_memo [Nonempty T] (h : D.Rep n n nseg nseg nrank ow T' P all)
    (hin : ∀ e ∈ all, InMat n n e) (hs0 : 0 < nseg) (hr : 0 < nrank) (how : ∀ i j, ow i j < nrank)
    {threads : Nat} (hth : 0 < threads) (env : MulEnv T T T) (g : Nat → Nat → Fresh T) (op : VarOp E T) (hop : op.Valid n)
    {d : Nat → DVec T} {s : Nat → Memo T} (hs : ∀ v, MemoRel n nseg nrank (d v) (s v)) :
    ∃ o, op.MemoStep n nseg (fun w => getPartition n nseg w) (SharedX nseg nrank ow) (SharedV nseg nrank ow) all s o ∧
      match o with
      | none => op.exec env g threads nrank D d = none
      | some s' => ∃ d', op.exec env g threads nrank D d = some d' ∧ ∀ v, MemoRel n nseg nrank (d' v) (s' v) := by
  -- one vector changes
  have put : ∀ {i : Nat} {x : DVec T} {m : Memo T}, MemoRel n nseg nrank x m →
      ∀ v, MemoRel n nseg nrank (putVec d i x v) (if v = i then m else s v) := by
    intro i x m hx v
    unfold putVec
    by_cases e : v = i
    · rw [if_pos e, if_pos e]
      exact hx
    · rw [if_neg e, if_neg e]
      exact hs v
  cases op with
  | on i o =>
    obtain ⟨x, a1, a2⟩ := VecOp.exec_memo (hs i) hs0 hr g hop
    refine ⟨_, rfl, putVec d i x, ?_, put a2⟩
    show (o.exec g (d i)).map _ = _
    rw [a1]
    rfl
  | apply f i j =>
    by_cases hw : (s i).written nseg = true
    · obtain ⟨x, a1, a2⟩ := DVec.apply_memo (hs i) (hs j) hs0 hr (Memo.written_iff.mp hw) g f
      refine ⟨some _, (if_pos hw).symm, putVec d j x, ?_, put a2⟩
      show (DVec.apply g _ (d i) (d j)).map _ = _
      rw [a1]
      rfl
    · refine ⟨none, (if_neg hw).symm, ?_⟩
      obtain ⟨p, h1, h2⟩ := (hs i).never hw
      show (DVec.apply _ _ (d i) (d j)).map _ = none
      rw [DVec.apply_null (hs i).wf (hs j).wf hr h1 h2]
      rfl
  | applySelf f i =>
    obtain ⟨x, a1, a2, a3, a4⟩ := DVec.applySelf_spec (hs i).wf hr g (fun x _ => f x)
    refine ⟨_, rfl, putVec d i x, ?_, put (MemoRel.of_ready a2 (DVec.applySelf_quiet (hs i).wf hr a1 (hs i).quiet) a3 ?_)⟩
    · show (eachRank (d i) _).map _ = _
      rw [a1]
      rfl
    · intro w h1 h2
      rw [a4, (hs i).sem hs0 h1 h2]
  | intersect f i j k =>
    by_cases hw : ((s i).written nseg && (s j).written nseg) = true
    · obtain ⟨h1, h2⟩ := Bool.and_eq_true_iff.mp hw
      obtain ⟨x, a1, a2⟩ := DVec.intersectReduce_memo (hs i) (hs j) (hs k) hs0 hr (Memo.written_iff.mp h1) (Memo.written_iff.mp h2) g f
      refine ⟨some _, (if_pos hw).symm, putVec d k x, ?_, put a2⟩
      show (DVec.intersectReduce g _ (d i) (d j) (d k)).map _ = _
      rw [a1]
      rfl
    · refine ⟨none, (if_neg hw).symm, ?_⟩
      have : ∃ p, p < nseg ∧ (((d i).own nrank p).props = none ∨ ((d j).own nrank p).props = none) := by
        by_cases h1 : (s i).written nseg = true
        · obtain ⟨p, hp, e⟩ := (hs j).never (fun h2 => hw (by rw [h1, h2]; rfl))
          exact ⟨p, hp, .inr e⟩
        · obtain ⟨p, hp, e⟩ := (hs i).never h1
          exact ⟨p, hp, .inl e⟩
      obtain ⟨p, h1, h2⟩ := this
      show (DVec.intersectReduce _ _ (d i) (d j) (d k)).map _ = none
      rw [DVec.intersectReduce_null (hs i).wf (hs j).wf (hs k).wf hr h1 h2]
      rfl
  | mul pm add i j =>
    by_cases hw : ((s i).sent (fun w => getPartition n nseg w) (SharedX nseg nrank ow)).written nseg = true
    · obtain ⟨x', y', a1, a2, a3, a4⟩ := DMat.spmspv_memo h hin hs0 hr how hth env pm add (hs i) (hs j) hw
      refine ⟨some (fun v => if v = j then ⟨y'.sem n nseg nrank, fun _ => .used⟩ else if v = i then
        (s i).sent (fun w => getPartition n nseg w) (SharedX nseg nrank ow) else s v), ?_, putVec (putVec d i x') j y', ?_, ?_⟩
      · dsimp only [VarOp.MemoStep]
        rw [if_pos hw]
        exact ⟨y'.sem n nseg nrank, rfl, a4⟩
      · show (D.spmspv env threads nrank _ add (d i) (d j)).map _ = _
        rw [a1]
        rfl
      · intro v
        unfold putVec
        by_cases e : v = j
        · simp only [if_pos e]
          exact a3
        · by_cases e' : v = i
          · simp only [if_neg e, if_pos e']
            exact a2
          · simp only [if_neg e, if_neg e']
            exact hs v
    · refine ⟨none, ?_, ?_⟩
      · dsimp only [VarOp.MemoStep]
        rw [if_neg hw]
      · obtain ⟨p, h1, h2, h3⟩ := (hs i).not_usable hw
        show (D.spmspv _ threads nrank _ add (d i) (d j)).map _ = none
        rw [DMat.spmspv_null h hs0 hr how hth _ _ add (hs i).wf (hs j).wf h1
          (fun i hi => Decidable.byContradiction fun hne => h2 ⟨i, hi, hne⟩) h3]
        rfl
  | mul3 pm add i j k =>
    by_cases hw : ((s i).sent (fun w => getPartition n nseg w) (SharedX nseg nrank ow)).written nseg = true
    · by_cases hwv : ((s j).sent (fun w => getPartition n nseg w) (SharedV nseg nrank ow)).written nseg = true
      · by_cases hcov : Covered all ((s i).sent (fun w => getPartition n nseg w) (SharedX nseg nrank ow)).val
          ((s j).sent (fun w => getPartition n nseg w) (SharedV nseg nrank ow)).val
        · obtain ⟨x', v', y', a1, a2, a3, a4, a5⟩ := DMat.spmspv3_memo h hin hs0 hr how hth env pm add (hs i) (hs j) (hs k) hw hwv hcov
          refine ⟨some _, .inl ⟨hw, hwv, hcov, y'.sem n nseg nrank, rfl, a5⟩, putVec (putVec (putVec d i x') j v') k y', ?_, ?_⟩
          · show (D.spmspv3 env threads nrank _ add (d i) (d j) (d k)).map _ = _
            rw [a1]
            rfl
          · intro v
            unfold putVec
            by_cases e : v = k
            · simp only [if_pos e]
              exact a4
            · by_cases e' : v = j
              · simp only [if_neg e, if_pos e']
                exact a3
              · by_cases e'' : v = i
                · simp only [if_neg e, if_neg e', if_pos e'']
                  exact a2
                · simp only [if_neg e, if_neg e', if_neg e'']
                  exact hs v
        · refine ⟨none, .inr ⟨fun h => hcov h.2.2, rfl⟩, ?_⟩
          show (D.spmspv3 _ threads nrank _ add (d i) (d j) (d k)).map _ = none
          rw [DMat.spmspv3_uncovered h hin hs0 hr how hth env pm add (hs i) (hs j) (hs k) hw hwv hcov]
          rfl
      · refine ⟨none, .inr ⟨fun h => hwv h.2.1, rfl⟩, ?_⟩
        obtain ⟨p, h1, h2, h3⟩ := (hs j).not_usable hwv
        show (D.spmspv3 _ threads nrank _ add (d i) (d j) (d k)).map _ = none
        rw [DMat.spmspv3_null h hs0 hs0 hr how hth _ _ add (hs i).wf (hs j).wf (hs k).wf
          (.inr ⟨p, h1, fun i hi => Decidable.byContradiction fun hne => h2 ⟨i, hi, hne⟩, h3⟩)]
        rfl
    · refine ⟨none, .inr ⟨fun h => hw h.1, rfl⟩, ?_⟩
      obtain ⟨p, h1, h2, h3⟩ := (hs i).not_usable hw
      show (D.spmspv3 _ threads nrank _ add (d i) (d j) (d k)).map _ = none
      rw [DMat.spmspv3_null h hs0 hs0 hr how hth _ _ add (hs i).wf (hs j).wf (hs k).wf
        (.inl ⟨p, h1, fun i hi => Decidable.byContradiction fun hne => h2 ⟨i, hi, hne⟩, h3⟩)]
      rfl

theorem runVars_memo [Nonempty T] (h : D.Rep n n nseg nseg nrank ow T' P all)
    (hin : ∀ e ∈ all, InMat n n e) (hs0 : 0 < nseg) (hr : 0 < nrank) (how : ∀ i j, ow i j < nrank)
    {threads : Nat} (hth : 0 < threads) (env : Nat → MulEnv T T T) (g : Nat → Nat → Nat → Fresh T) :
    ∀ (ops : List (VarOp E T)) (_ : ∀ op ∈ ops, op.Valid n) (k : Nat) {d : Nat → DVec T} {s : Nat → Memo T}
      (_ : ∀ v, MemoRel n nseg nrank (d v) (s v)),
    ∃ o, MemoSteps n nseg (fun w => getPartition n nseg w) (SharedX nseg nrank ow) (SharedV nseg nrank ow) all ops s o ∧
      match o with
      | none => runVars env g threads nrank D k ops d = none
      | some s' => ∃ d', runVars env g threads nrank D k ops d = some d' ∧ ∀ v, MemoRel n nseg nrank (d' v) (s' v) := by
  intro ops
  induction ops with
  | nil =>
    intro _ k d s hs
    exact ⟨some s, .nil, d, rfl, hs⟩
  | cons op ops ih =>
    intro hops k d s hs
    obtain ⟨o, a1, a2⟩ := VarOp.exec_memo h hin hs0 hr how hth (env k) (g k) op (hops op List.mem_cons_self) hs
    cases o with
    | none =>
      refine ⟨none, .fail a1, ?_⟩
      show runVars env g threads nrank D k (op :: ops) d = none
      unfold runVars
      exact none_fails a2
    | some s1 =>
      obtain ⟨d1, a2, a3⟩ := a2
      obtain ⟨o, b1, b2⟩ := ih (fun o ho => hops o (List.mem_cons_of_mem _ ho)) (k + 1) a3
      refine ⟨o, .cons a1 b1, ?_⟩
      have e : runVars env g threads nrank D k (op :: ops) d = runVars env g threads nrank D (k + 1) ops d1 := by
        show (op.exec (env k) (g k) threads nrank D d).bind _ = _
        rw [a2]
        rfl
      rw [e]
      exact b2

end

theorem newVec_memo {n nseg nrank : Nat} (hs : 0 < nseg) (hr : 0 < nrank) :
    ∃ d : DVec T, DVec.new n nseg nrank = some d ∧ MemoRel n nseg nrank d Memo.new := by
  obtain ⟨d, b1, b2⟩ := newVec_rel (T := T) (n := n) hs hr
  refine ⟨d, b1, b2.wf, b2.quiet, b2.parts, ?_⟩
  intro w p h1 h2 hp
  have : (d.own nrank p).props = none := b2.parts p (getPartition_some hp).1
  simp [Segment.view, Segment.wake, this, Memo.new]

section

variable {n nseg nrank : Nat} {pfn : Nat → Nat → Nat → Option Nat} {ow : Nat → Nat → Nat} {srt : Sorts E} {threads : Nat}
  {blobs : List (List (Edge E))}

/-- C91: a program builds a square matrix (any size, any tiling, any placement of the tiles on any number of ranks) and any
number of new vectors, and makes *any* sequence of `set`, `unset`, `setAll`, `Clear`, `Apply`, `IntersectReduce`, `SpMSpV` and
`SpMSpV3` on them, with operands in any state.  What happens is described by the values that the vectors remember
(`MemoSteps`): the program fails if that says so, and otherwise the vectors read (`getNNZ`, `get`) as the values that are visible. -/
theorem vector_program_exact [Nonempty T] (hsrt : srt.OK) (gt : Nat → Nat → Nat → TileFresh E) (hth : 0 < threads)
    (hs0 : 0 < nseg) (hr : 0 < nrank) (hpfn : ∀ i j, pfn j i nrank = some (ow i j))
    (how : ∀ i j, ow i j < nrank) (hlen : blobs.length = nrank) (hin : ∀ e ∈ blobs.flatten, InMat n n e)
    (env : Nat → MulEnv T T T) (g : Nat → Nat → Nat → Fresh T)
    (ops : List (VarOp E T)) (hops : ∀ op ∈ ops, op.Valid n) :
    ∃ out D v0, DMat.ofEdges n n nseg nseg nrank pfn srt gt threads blobs = some (out, D) ∧
      DVec.new n nseg nrank = some v0 ∧
      ∃ o, MemoSteps n nseg (fun w => getPartition n nseg w) (SharedX nseg nrank ow) (SharedV nseg nrank ow) blobs.flatten ops
          (fun _ => Memo.new) o ∧
        match o with
        | none => runVars env g threads nrank D 0 ops (fun _ => v0) = none
        | some s => ∃ d, runVars env g threads nrank D 0 ops (fun _ => v0) = some d ∧ ∀ i,
            (d i).getNNZ = some ((List.range n).countP (fun j => ((s i).seen (fun w => getPartition n nseg w) (j + 1)).isSome)) ∧
            ∀ w t, 1 ≤ w → w ≤ n → (s i).seen (fun w => getPartition n nseg w) w = some t →
              ∃ p, getPartition n nseg w = some p ∧ ((d i).get (p % nrank)).get w = some (some t) := by
  obtain ⟨out, D, T', P, a1, _, _, _, a5⟩ := DMat.ofEdges_spec hsrt gt hth hs0 hs0 hr hpfn how hlen hin
  obtain ⟨v0, b1, b3⟩ := newVec_memo (T := T) (n := n) hs0 hr
  obtain ⟨o, c1, c2⟩ := runVars_memo a5 hin hs0 hr how hth env g ops hops 0 (fun _ => b3)
  refine ⟨out, D, v0, a1, b1, o, c1, ?_⟩
  cases o with
  | none => exact c2
  | some s =>
    obtain ⟨d, e1, e2⟩ := c2
    exact ⟨d, e1, fun i => DVec.reads hs0 hr (e2 i).wf (fun w h1 h2 => (e2 i).sem hs0 h1 h2)⟩

end

/-! ### What is determined -/

/-- The same parts are in use and values are in the same places. -/
def Memo.Alike (n : Nat) (m m' : Memo T) : Prop :=
  (∀ p, m.use p = m'.use p) ∧ ∀ w, 1 ≤ w → w ≤ n → (m.val w).isSome = (m'.val w).isSome

section

variable {n nseg : Nat} {part : Nat → Option Nat} {Q Q' : Nat → Prop} [DecidablePred Q] [DecidablePred Q'] {m m' : Memo T}

theorem Memo.Alike.refl (n : Nat) (m : Memo T) : m.Alike n m := ⟨fun _ => rfl, fun _ _ _ => rfl⟩

theorem Memo.Alike.seen (h : m.Alike n m') {w : Nat} (h1 : 1 ≤ w) (h2 : w ≤ n) : (m.seen part w).isSome = (m'.seen part w).isSome := by
  unfold Memo.seen
  cases part w with
  | none => rfl
  | some p =>
    simp only
    rw [h.1 p]
    split
    · exact h.2 w h1 h2
    · rfl

theorem Memo.Alike.sent (h : m.Alike n m') : (m.sent part Q).Alike n (m'.sent part Q) := by
  refine ⟨fun p => ?_, fun w h1 h2 => ?_⟩
  · unfold Memo.sent
    simp only
    rw [h.1 p]
  · unfold Memo.sent
    simp only
    split
    · exact h.seen h1 h2
    · exact h.2 w h1 h2

theorem Memo.Alike.written (h : m.Alike n m') : m.written nseg = m'.written nseg := by
  unfold Memo.written
  congr 1
  funext p
  rw [h.1 p]

theorem Memo.Alike.covered {x x' v v' : Memo T} {es : List (Edge E)} (hin : ∀ e ∈ es, InMat n n e) (hx : x.Alike n x') (hv : v.Alike n v') :
    Covered es x.val v.val ↔ Covered es x'.val v'.val := by
  unfold Covered
  refine forall_congr' fun e => forall_congr' fun he => ?_
  obtain ⟨h1, h2, h3, h4⟩ := hin e he
  rw [hx.2 _ (by omega) (by omega), hv.2 _ (by omega) (by omega)]

theorem Reduces.isSome {add : T → T → T} {l : List T} {o : Option T} (h : Reduces add l o) : o.isSome = !l.isEmpty := by
  rcases h with ⟨rfl, rfl⟩ | ⟨t, ht, rfl⟩
  · rfl
  · cases l with
    | nil =>
      exact absurd ht.eq_nil t.leaves_ne
    | cons a l => rfl

theorem VecOp.memo_alike (h : m.Alike n m') (op : VecOp T) : (op.memo part m).Alike n (op.memo part m') := by
  refine ⟨fun p => ?_, fun w h1 h2 => ?_⟩
  · have e : m.use = m'.use := funext h.1
    unfold VecOp.memo
    simp only
    rw [e]
  · have a := h.2 w h1 h2
    have b := h.seen (part := part) h1 h2
    cases op <;> simp only [VecOp.memo, VecOp.spec]
    · split
      · split
        · rfl
        · exact b
      · exact a
    · split
      · split
        · rfl
        · exact b
      · exact a
    · exact a

end

theorem Alike.products {n : Nat} {x x' : Memo T} {es : List (Edge E)} (hin : ∀ e ∈ es, InMat n n e) (hx : x.Alike n x')
    (pm : E → T → T) (w : Nat) : (matProducts x.val pm es w).isEmpty = (matProducts x'.val pm es w).isEmpty := by
  rw [Bool.eq_iff_iff]
  simp only [matProducts, List.isEmpty_iff, List.filterMap_eq_nil_iff]
  refine forall_congr' fun e => forall_congr' fun he => ?_
  obtain ⟨h1, h2, h3, h4⟩ := hin e he
  have a := hx.2 e.dst.toNat (by omega) (by omega)
  split
  · cases e1 : x.val e.dst.toNat <;> cases e2 : x'.val e.dst.toNat <;> simp [e1, e2] at a ⊢
  · rfl

theorem Alike.products3 {n : Nat} {x x' v v' : Memo T} {es : List (Edge E)} (hin : ∀ e ∈ es, InMat n n e) (hx : x.Alike n x')
    (hv : v.Alike n v') (pm : E → T → T → T) {w : Nat} (w1 : 1 ≤ w) (w2 : w ≤ n) :
    (matProducts3 x.val v.val pm es w).isEmpty = (matProducts3 x'.val v'.val pm es w).isEmpty := by
  rw [Bool.eq_iff_iff]
  simp only [matProducts3, List.isEmpty_iff, List.filterMap_eq_nil_iff]
  refine forall_congr' fun e => forall_congr' fun he => ?_
  obtain ⟨h1, h2, h3, h4⟩ := hin e he
  have a := hx.2 e.dst.toNat (by omega) (by omega)
  have b := hv.2 w w1 w2
  split
  · cases e1 : x.val e.dst.toNat <;> cases e2 : x'.val e.dst.toNat <;> simp [e1, e2] at a ⊢
    cases e3 : v.val w <;> cases e4 : v'.val w <;> simp [e3, e4] at b ⊢
  · rfl

theorem alike_append {a a' : Option T} {l l' : List T} {o o' : Option T} {add : T → T → T} (ha : a.isSome = a'.isSome)
    (hl : l.isEmpty = l'.isEmpty) (h : Reduces add (a.toList ++ l) o) (h' : Reduces add (a'.toList ++ l') o') : o.isSome = o'.isSome := by
  rw [h.isSome, h'.isSome]
  cases a <;> cases a' <;> simp at ha ⊢
  exact hl

section

variable {n nseg : Nat} {part : Nat → Option Nat} {sX sV : Nat → Prop} [DecidablePred sX] [DecidablePred sV] {es : List (Edge E)}

/-- Both fail, or both succeed with values in the same places. -/
def SameShape (n : Nat) : Option (Nat → Memo T) → Option (Nat → Memo T) → Prop
  | none, none => True
  | some s, some s' => ∀ v, (s v).Alike n (s' v)
  | _, _ => False

theorem VarOp.memoStep_alike (hin : ∀ e ∈ es, InMat n n e) (op : VarOp E T) {s s' : Nat → Memo T} (hs : ∀ v, (s v).Alike n (s' v))
    {o o' : Option (Nat → Memo T)} (h : op.MemoStep n nseg part sX sV es s o) (h' : op.MemoStep n nseg part sX sV es s' o') :
    SameShape n o o' := by
  cases op with
  | on i op =>
    obtain rfl : o = _ := h
    obtain rfl : o' = _ := h'
    intro v
    simp only
    split
    · exact VecOp.memo_alike (hs i) op
    · exact hs v
  | apply f i j =>
    obtain rfl : o = _ := h
    obtain rfl : o' = _ := h'
    rw [(hs i).written (nseg := nseg)]
    split
    · intro v
      simp only
      split
      · refine ⟨fun _ => rfl, fun w h1 h2 => ?_⟩
        have a := (hs i).2 w h1 h2
        have b := (hs j).seen (part := part) h1 h2
        simp only
        cases e1 : (s i).val w <;> cases e2 : (s' i).val w <;> simp [e1, e2] at a ⊢
        simpa using b
      · exact hs v
    · trivial
  | applySelf f i =>
    obtain rfl : o = _ := h
    obtain rfl : o' = _ := h'
    intro v
    simp only
    split
    · refine ⟨fun _ => rfl, fun w h1 h2 => ?_⟩
      simpa using (hs i).seen (part := part) h1 h2
    · exact hs v
  | intersect f i j k =>
    obtain rfl : o = _ := h
    obtain rfl : o' = _ := h'
    rw [(hs i).written (nseg := nseg), (hs j).written (nseg := nseg)]
    split
    · intro v
      simp only
      split
      · refine ⟨fun _ => rfl, fun w h1 h2 => ?_⟩
        have a := (hs i).2 w h1 h2
        have b := (hs j).2 w h1 h2
        simp only [(hs i).1, (hs j).1]
        split
        · cases e1 : (s i).val w <;> cases e2 : (s' i).val w <;> simp [e1, e2] at a ⊢
          simpa using b
        · exact (hs k).seen h1 h2
      · exact hs v
    · trivial
  | mul pm add i j =>
    have hx := (hs i).sent (part := part) (Q := sX)
    dsimp only [VarOp.MemoStep] at h h'
    rw [hx.written (nseg := nseg)] at h
    split at h
    · next hw =>
      rw [if_pos hw] at h'
      obtain ⟨y, rfl, a⟩ := h
      obtain ⟨y', rfl, a'⟩ := h'
      intro v
      simp only
      split
      · exact ⟨fun _ => rfl, fun w h1 h2 => alike_append ((hs j).seen h1 h2) (Alike.products hin hx pm w) (a w h1 h2) (a' w h1 h2)⟩
      · split
        · exact hx
        · exact hs v
    · next hw =>
      rw [if_neg hw] at h'
      subst h h'
      trivial
  | mul3 pm add i j k =>
    have hx := (hs i).sent (part := part) (Q := sX)
    have hv := (hs j).sent (part := part) (Q := sV)
    dsimp only [VarOp.MemoStep] at h h'
    rw [hx.written (nseg := nseg), hv.written (nseg := nseg), Memo.Alike.covered hin hx hv] at h
    rcases h with ⟨c1, c2, c3, y, rfl, a⟩ | ⟨c, rfl⟩
    · rcases h' with ⟨_, _, _, y', rfl, a'⟩ | ⟨c, _⟩
      · intro v
        simp only
        split
        · exact ⟨fun _ => rfl, fun w h1 h2 =>
            alike_append ((hs k).seen h1 h2) (Alike.products3 hin hx hv pm h1 h2) (a w h1 h2) (a' w h1 h2)⟩
        · split
          · exact hv
          · split
            · exact hx
            · exact hs v
      · exact absurd ⟨c1, c2, c3⟩ c
    · rcases h' with ⟨c1, c2, c3, _⟩ | ⟨_, rfl⟩
      · exact absurd ⟨c1, c2, c3⟩ c
      · trivial

theorem memoSteps_alike (hin : ∀ e ∈ es, InMat n n e) (ops : List (VarOp E T)) : ∀ {s s' : Nat → Memo T} (_ : ∀ v, (s v).Alike n (s' v))
    {o o' : Option (Nat → Memo T)} (_ : MemoSteps n nseg part sX sV es ops s o) (_ : MemoSteps n nseg part sX sV es ops s' o'),
    SameShape n o o' := by
  induction ops with
  | nil =>
    intro s s' hs o o' h h'
    cases h
    cases h'
    exact hs
  | cons op ops ih =>
    intro s s' hs o o' h h'
    cases h with
    | fail a =>
      cases h' with
      | fail a' => trivial
      | cons a' t' => exact (VarOp.memoStep_alike hin op hs a a').elim
    | cons a t =>
      cases h' with
      | fail a' => exact (VarOp.memoStep_alike hin op hs a a').elim
      | cons a' t' => exact ih (VarOp.memoStep_alike hin op hs a a') t t'

end

section

variable {n nseg nrank : Nat} {pfn : Nat → Nat → Nat → Option Nat} {ow : Nat → Nat → Nat} {srt : Sorts E} {threads : Nat}
  {blobs : List (List (Edge E))}

/-- C91: whether a program fails, and how many values its vectors have, does not depend on what memory holds, on the options of the
transfers or on the order of the entries. -/
theorem vector_program_determined [Nonempty T] {srt' : Sorts E} (hsrt : srt.OK) (hsrt' : srt'.OK) (gt gt' : Nat → Nat → Nat → TileFresh E)
    (hth : 0 < threads) {threads' : Nat} (hth' : 0 < threads')
    (hs0 : 0 < nseg) (hr : 0 < nrank) (hpfn : ∀ i j, pfn j i nrank = some (ow i j))
    (how : ∀ i j, ow i j < nrank) (hlen : blobs.length = nrank) (hin : ∀ e ∈ blobs.flatten, InMat n n e)
    (env env' : Nat → MulEnv T T T) (g g' : Nat → Nat → Nat → Fresh T)
    (ops : List (VarOp E T)) (hops : ∀ op ∈ ops, op.Valid n) :
    ∃ out D out' D' v0, DMat.ofEdges n n nseg nseg nrank pfn srt gt threads blobs = some (out, D) ∧
      DMat.ofEdges n n nseg nseg nrank pfn srt' gt' threads' blobs = some (out', D') ∧ DVec.new n nseg nrank = some v0 ∧
      ∀ i, (runVars env g threads nrank D 0 ops (fun _ => v0)).map (fun d => (d i).getNNZ) =
        (runVars env' g' threads' nrank D' 0 ops (fun _ => v0)).map (fun d => (d i).getNNZ) := by
  obtain ⟨out, D, v0, a1, a2, o, a3, a4⟩ := vector_program_exact hsrt gt hth hs0 hr hpfn how hlen hin env g ops hops
  obtain ⟨out', D', v0', b1, b2, o', b3, b4⟩ := vector_program_exact hsrt' gt' hth' hs0 hr hpfn how hlen hin env' g' ops hops
  rw [a2] at b2
  injection b2 with b2
  subst b2
  refine ⟨out, D, out', D', v0, a1, b1, a2, fun i => ?_⟩
  have := memoSteps_alike hin ops (fun _ => Memo.Alike.refl n _) a3 b3
  cases o with
  | none =>
    cases o' with
    | none => rw [a4, b4]
    | some s' => exact this.elim
  | some s =>
    cases o' with
    | none => exact this.elim
    | some s' =>
      obtain ⟨d, c1, c2⟩ := a4
      obtain ⟨d', e1, e2⟩ := b4
      rw [c1, e1, Option.map_some, Option.map_some, (c2 i).1, (e2 i).1]
      congr 2
      apply List.countP_congr
      intro j hj
      rw [List.mem_range] at hj
      rw [(this i).seen (by omega) (by omega)]

end

/-! ### Runs of programs -/

/-- A product with a cleared operand on one rank, and on two ranks. -/
def mulCleared : List (VarOp Nat Nat) := [.on 0 (.setAll 5), .on 0 .clear, .mul (fun e x => e * x) (· + ·) 0 1]

/-- The hypotheses of `vector_program_exact`, for a program with an operand that was cleared and one that was never written. -/
example := vector_program_exact (n := 3) (nseg := 2) (nrank := 2) (pfn := partitionFn1d) (ow := fun i _ => i % 2) Sorts.ins_ok
  (fun _ _ _ => (LoadEnv.sample (E := Nat) 0 0).gA 0 0 0) (threads := 1) (by decide) (by decide) (by decide) (fun _ _ => rfl)
  (fun _ _ => Nat.mod_lt _ (by decide)) (blobs := [sampleMulEdges, []]) rfl (by unfold InMat; decide) (fun _ => MulEnv.sample 0 0 0)
  (fun _ _ _ => Fresh.sample 7) (mulCleared ++ [.mul3 (fun e x v => e * x + v) (· + ·) 1 2 0])
  (by simp [mulCleared, VarOp.Valid, VecOp.Valid])

/-- The hypotheses of `vector_program_determined`: two runs of this program with other contents of memory. -/
example := vector_program_determined (n := 3) (nseg := 2) (nrank := 2) (pfn := partitionFn1d) (ow := fun i _ => i % 2) Sorts.ins_ok Sorts.ins_ok
  (fun _ _ _ => (LoadEnv.sample (E := Nat) 0 0).gA 0 0 0) (fun _ _ _ => (LoadEnv.sample (E := Nat) 9 9).gA 0 0 0) (threads := 1) (by decide)
  (threads' := 4) (by decide) (by decide) (by decide) (fun _ _ => rfl)
  (fun _ _ => Nat.mod_lt _ (by decide)) (blobs := [sampleMulEdges, []]) rfl (by unfold InMat; decide) (fun _ => MulEnv.sample 0 0 0)
  (fun _ => MulEnv.sample 1 2 3) (fun _ _ _ => Fresh.sample 7) (fun _ _ _ => Fresh.sample 8)
  mulCleared (by simp [mulCleared, VarOp.Valid, VecOp.Valid])

/-- On one rank the product and `Apply` find the hidden values; on two ranks the product does not (the number of values is 0). -/
example : sampleVars 3 1 sampleMulEdges mulCleared 1 = some (2, [some (some 5)]) ∧
    sampleVars 3 2 sampleMulEdges mulCleared 1 = some (0, [some (some 0), some none]) ∧
    sampleVars 3 2 sampleMulEdges ([.on 0 (.setAll 5), .on 0 .clear, .apply (· + 1) 0 1]) 1 = some (3, [some (some 6), some none]) ∧
    sampleVars 3 2 sampleMulEdges ([.on 0 (.set 1 5), .on 0 .clear, .apply (· + 1) 0 1]) 1 = none := by
  decide +kernel

end GraphMat
