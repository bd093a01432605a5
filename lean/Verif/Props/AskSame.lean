import Verif.Spec.AskSame
import Verif.Props.MemoAsk

/-!
# Programs with order-free operators have one result (C93)
-/
namespace GraphMat

variable {E T A : Type}

/-- The same history, and the same values at the positions of the vector. -/
def Memo.Same (n : Nat) (m m' : Memo T) : Prop :=
  (∀ p, m.use p = m'.use p) ∧ ∀ w, 1 ≤ w → w ≤ n → m.val w = m'.val w

section

variable {n nseg : Nat} {part : Nat → Option Nat} {Q : Nat → Prop} [DecidablePred Q] {m m' : Memo T}

theorem Memo.Same.seen (h : m.Same n m') {w : Nat} (h1 : 1 ≤ w) (h2 : w ≤ n) : m.seen part w = m'.seen part w := by
  unfold Memo.seen
  cases part w with
  | none => rfl
  | some p => simp only [h.1 p, h.2 w h1 h2]

theorem Memo.Same.alike (h : m.Same n m') : m.Alike n m' := ⟨h.1, fun w h1 h2 => by rw [h.2 w h1 h2]⟩

theorem Memo.Same.sent (h : m.Same n m') : (m.sent part Q).Same n (m'.sent part Q) := by
  refine ⟨fun p => ?_, fun w h1 h2 => ?_⟩
  · simp only [Memo.sent, h.1 p]
  · simp only [Memo.sent, h.seen (part := part) h1 h2, h.2 w h1 h2]

theorem Memo.Same.written (h : m.Same n m') : m.written nseg = m'.written nseg := h.alike.written

theorem VecOp.memo_same (h : m.Same n m') (op : VecOp T) : (op.memo part m).Same n (op.memo part m') := by
  refine ⟨fun p => ?_, fun w h1 h2 => ?_⟩
  · have e : m.use = m'.use := funext h.1
    simp only [VecOp.memo, e]
  · have a := h.2 w h1 h2
    have b := h.seen (part := part) h1 h2
    cases op <;> simp only [VecOp.memo, VecOp.spec, a, b]

end

theorem Reduces.same {add : A → A → A} (h : OrderFree add) {l l' : List A} (hp : l.Perm l') {o o' : Option A} (h1 : Reduces add l o)
    (h2 : Reduces add l' o') : o = o' := by
  rw [Reduces.unique h.1 h.2 (h1.perm hp), Reduces.unique h.1 h.2 h2]

theorem Same.products {n : Nat} {x x' : Memo T} {es es' : List (Edge E)} (hin : ∀ e ∈ es, InMat n n e) (hp : es.Perm es')
    (hx : x.Same n x') (pm : E → T → T) (w : Nat) : (matProducts x.val pm es w).Perm (matProducts x'.val pm es' w) := by
  have : matProducts x.val pm es w = matProducts x'.val pm es w := by
    unfold matProducts
    apply List.filterMap_congr
    intro e he
    obtain ⟨h1, h2, h3, h4⟩ := hin e he
    rw [hx.2 e.dst.toNat (by omega) (by omega)]
  rw [this]
  exact hp.filterMap _

theorem Same.products3 {n : Nat} {x x' v v' : Memo T} {es es' : List (Edge E)} (hin : ∀ e ∈ es, InMat n n e) (hp : es.Perm es')
    (hx : x.Same n x') (hv : v.Same n v') (pm : E → T → T → T) {w : Nat} (w1 : 1 ≤ w) (w2 : w ≤ n) :
    (matProducts3 x.val v.val pm es w).Perm (matProducts3 x'.val v'.val pm es' w) := by
  have : matProducts3 x.val v.val pm es w = matProducts3 x'.val v'.val pm es w := by
    unfold matProducts3
    apply List.filterMap_congr
    intro e he
    obtain ⟨h1, h2, h3, h4⟩ := hin e he
    rw [hx.2 e.dst.toNat (by omega) (by omega), hv.2 w w1 w2]
  rw [this]
  exact hp.filterMap _

theorem Same.covered {n : Nat} {x x' v v' : Memo T} {es es' : List (Edge E)} (hin : ∀ e ∈ es, InMat n n e) (hp : es.Perm es')
    (hx : x.Same n x') (hv : v.Same n v') : Covered es x.val v.val ↔ Covered es' x'.val v'.val := by
  rw [Memo.Alike.covered hin hx.alike hv.alike]
  unfold Covered
  exact forall_congr' fun e => by rw [hp.mem_iff]

section

variable {n nseg copies : Nat} {part : Nat → Option Nat} {sX sV : Nat → Prop} [DecidablePred sX] [DecidablePred sV] {es es' : List (Edge E)}

/-- Both fail, or both succeed with the same values and answers. -/
def SameAnswers (n : Nat) : Option ((Nat → Memo T) × List (Answer A)) → Option ((Nat → Memo T) × List (Answer A)) → Prop
  | none, none => True
  | some (s, a), some (s', a') => (∀ v, (s v).Same n (s' v)) ∧ a = a'
  | _, _ => False

theorem mapValues_same {m : T → A} {f f' : Nat → Option T} (h : ∀ w, 1 ≤ w → w ≤ n → f w = f' w) : mapValues n m f = mapValues n m f' := by
  unfold mapValues
  apply List.filterMap_congr
  intro j hj
  rw [List.mem_range] at hj
  rw [h (j + 1) (by omega) (by omega)]

theorem AskOp.memoStep_same (hin : ∀ e ∈ es, InMat n n e) (hp : es.Perm es') (op : AskOp E T A) (hop : op.OrderFree) {s s' : Nat → Memo T}
    (hs : ∀ v, (s v).Same n (s' v)) {o o' : Option ((Nat → Memo T) × List (Answer A))}
    (h : op.MemoStep copies n nseg part sX sV es s o) (h' : op.MemoStep copies n nseg part sX sV es' s' o') : SameAnswers n o o' := by
  cases op with
  | count i =>
    obtain rfl : o = _ := h
    obtain rfl : o' = _ := h'
    refine ⟨hs, ?_⟩
    congr 2
    apply List.countP_congr
    intro j hj
    rw [List.mem_range] at hj
    rw [(hs i).seen (by omega) (by omega)]
  | reduce m w op e i =>
    obtain ⟨x, h1, rfl⟩ := h
    obtain ⟨x', h1', rfl⟩ := h'
    rw [mapValues_same (fun w a b => (hs i).seen a b)] at h1
    have := Reduces.same hop (.refl _) h1 h1'
    refine ⟨fun v => ?_, ?_⟩
    · simp only
      split
      · exact ⟨fun _ => rfl, fun w a b => by simp only [(hs i).seen (part := part) a b]⟩
      · exact hs v
    · rw [Option.some.inj this]
  | call op =>
    obtain ⟨o, h, rfl⟩ := h
    obtain ⟨o', h', rfl⟩ := h'
    cases op with
    | on i op =>
      obtain rfl : o = _ := h
      obtain rfl : o' = _ := h'
      refine ⟨fun v => ?_, rfl⟩
      simp only
      split
      · exact VecOp.memo_same (hs i) op
      · exact hs v
    | apply f i j =>
      obtain rfl : o = _ := h
      obtain rfl : o' = _ := h'
      rw [(hs i).written (nseg := nseg)]
      split
      · refine ⟨fun v => ?_, rfl⟩
        simp only
        split
        · exact ⟨fun _ => rfl, fun w h1 h2 => by simp only [(hs i).2 w h1 h2, (hs j).seen (part := part) h1 h2]⟩
        · exact hs v
      · trivial
    | applySelf f i =>
      obtain rfl : o = _ := h
      obtain rfl : o' = _ := h'
      refine ⟨fun v => ?_, rfl⟩
      simp only
      split
      · exact ⟨fun _ => rfl, fun w h1 h2 => by simp only [(hs i).seen (part := part) h1 h2]⟩
      · exact hs v
    | intersect f i j k =>
      obtain rfl : o = _ := h
      obtain rfl : o' = _ := h'
      rw [(hs i).written (nseg := nseg), (hs j).written (nseg := nseg)]
      split
      · refine ⟨fun v => ?_, rfl⟩
        simp only
        split
        · refine ⟨fun _ => rfl, fun w h1 h2 => ?_⟩
          simp only [(hs i).2 w h1 h2, (hs j).2 w h1 h2, (hs k).seen (part := part) h1 h2, (hs i).1, (hs j).1]
        · exact hs v
      · trivial
    | mul pm add i j =>
      have hx := (hs i).sent (part := part) (Q := sX)
      dsimp only [VarOp.MemoStep] at h h'
      rw [hx.written (nseg := nseg)] at h
      split at h
      · next hw =>
        rw [if_pos hw] at h'
        obtain ⟨y, rfl, a⟩ := h
        obtain ⟨y', rfl, a'⟩ := h'
        refine ⟨fun v => ?_, rfl⟩
        simp only
        split
        · refine ⟨fun _ => rfl, fun w h1 h2 => Reduces.same hop ?_ (a w h1 h2) (a' w h1 h2)⟩
          rw [(hs j).seen h1 h2]
          exact (Same.products hin hp hx pm w).append_left _
        · split
          · exact hx
          · exact hs v
      · next hw =>
        rw [if_neg hw] at h'
        subst h h'
        trivial
    | mul3 pm add i j k =>
      have hx := (hs i).sent (part := part) (Q := sX)
      have hv := (hs j).sent (part := part) (Q := sV)
      dsimp only [VarOp.MemoStep] at h h'
      rw [hx.written (nseg := nseg), hv.written (nseg := nseg), Same.covered hin hp hx hv] at h
      rcases h with ⟨c1, c2, c3, y, rfl, a⟩ | ⟨c, rfl⟩
      · rcases h' with ⟨_, _, _, y', rfl, a'⟩ | ⟨c, _⟩
        · refine ⟨fun v => ?_, rfl⟩
          simp only
          split
          · refine ⟨fun _ => rfl, fun w h1 h2 => Reduces.same hop ?_ (a w h1 h2) (a' w h1 h2)⟩
            rw [(hs k).seen h1 h2]
            exact (Same.products3 hin hp hx hv pm h1 h2).append_left _
          · split
            · exact hv
            · split
              · exact hx
              · exact hs v
        · exact absurd ⟨c1, c2, c3⟩ c
      · rcases h' with ⟨c1, c2, c3, _⟩ | ⟨_, rfl⟩
        · exact absurd ⟨c1, c2, c3⟩ c
        · trivial

theorem memoAsks_same (hin : ∀ e ∈ es, InMat n n e) (hp : es.Perm es') (ops : List (AskOp E T A)) : ∀ (_ : ∀ op ∈ ops, op.OrderFree)
    {s s' : Nat → Memo T} (_ : ∀ v, (s v).Same n (s' v)) {o o' : Option ((Nat → Memo T) × List (Answer A))}
    (_ : MemoAsks copies n nseg part sX sV es ops s o) (_ : MemoAsks copies n nseg part sX sV es' ops s' o'), SameAnswers n o o' := by
  induction ops with
  | nil =>
    intro _ s s' hs o o' h h'
    cases h
    cases h'
    exact ⟨hs, rfl⟩
  | cons op ops ih =>
    intro hops s s' hs o o' h h'
    have one := fun o o' => AskOp.memoStep_same (copies := copies) (nseg := nseg) (part := part) (sX := sX) (sV := sV) hin hp op
      (hops op List.mem_cons_self) hs (o := o) (o' := o')
    cases h with
    | fail a =>
      cases h' with
      | fail a' => trivial
      | cons a' t' => exact (one _ _ a a').elim
    | cons a t =>
      cases h' with
      | fail a' => exact (one _ _ a a').elim
      | cons a' t' =>
        obtain ⟨b1, b2⟩ := one _ _ a a'
        have c := ih (fun o ho => hops o (List.mem_cons_of_mem _ ho)) b1 t t'
        rename_i o1 _ _ o2
        cases o1 with
        | none =>
          cases o2 with
          | none => trivial
          | some r => exact c.elim
        | some r =>
          cases o2 with
          | none => exact c.elim
          | some r' => exact ⟨c.1, by simp only [b2, c.2]⟩

end

section

variable {n nseg nrank : Nat} {pfn : Nat → Nat → Nat → Option Nat} {ow : Nat → Nat → Nat} {srt srt' : Sorts E} {threads threads' : Nat}
  {blobs blobs' : List (List (Edge E))}

/-- C93: two runs of a program whose operators are associative and commutative, with matrices of the same entries in any order and from any
ranks, with any numbers of threads, sorting functions, contents of memory and options of transfers: both fail, or both succeed and give the same
answers, and every vector holds the same values. -/
theorem program_has_one_result [Nonempty T] (hsrt : srt.OK) (hsrt' : srt'.OK) (gt gt' : Nat → Nat → Nat → TileFresh E)
    (hth : 0 < threads) (hth' : 0 < threads') (hs0 : 0 < nseg) (hr : 0 < nrank) (hpfn : ∀ i j, pfn j i nrank = some (ow i j))
    (how : ∀ i j, ow i j < nrank) (hlen : blobs.length = nrank) (hlen' : blobs'.length = nrank)
    (hsame : blobs.flatten.Perm blobs'.flatten) (hin : ∀ e ∈ blobs.flatten, InMat n n e) (hfit : n + threads ≤ IMAX)
    (hfit' : n + threads' ≤ IMAX) (env env' : Nat → MulEnv T T T) (g g' : Nat → Nat → Nat → Fresh T) (tmp tmp' : Nat → Nat → Nat → Nat → A)
    (ops : List (AskOp E T A)) (hops : ∀ op ∈ ops, op.Valid n) (hfree : ∀ op ∈ ops, op.OrderFree) :
    ∃ out D out' D' v0, DMat.ofEdges n n nseg nseg nrank pfn srt gt threads blobs = some (out, D) ∧
      DMat.ofEdges n n nseg nseg nrank pfn srt' gt' threads' blobs' = some (out', D') ∧ DVec.new n nseg nrank = some v0 ∧
      ((runAsks env g tmp threads nrank D 0 ops (fun _ => v0) = none ∧ runAsks env' g' tmp' threads' nrank D' 0 ops (fun _ => v0) = none) ∨
        ∃ d d' answers, runAsks env g tmp threads nrank D 0 ops (fun _ => v0) = some (d, answers) ∧
          runAsks env' g' tmp' threads' nrank D' 0 ops (fun _ => v0) = some (d', answers) ∧
          ∀ i, ∃ M : Nat → Option T,
            (d i).getNNZ = some ((List.range n).countP (fun j => (M (j + 1)).isSome)) ∧ (d' i).getNNZ = (d i).getNNZ ∧
            ∀ w t, 1 ≤ w → w ≤ n → M w = some t → ∃ p, getPartition n nseg w = some p ∧
              ((d i).get (p % nrank)).get w = some (some t) ∧ ((d' i).get (p % nrank)).get w = some (some t)) := by
  have hin' : ∀ e ∈ blobs'.flatten, InMat n n e := fun e he => hin e (hsame.mem_iff.mpr he)
  obtain ⟨out, D, T1, P, a1, _, _, _, a5⟩ := DMat.ofEdges_spec hsrt gt hth hs0 hs0 hr hpfn how hlen hin
  obtain ⟨out', D', T2, P', b1, _, _, _, b5⟩ := DMat.ofEdges_spec hsrt' gt' hth' hs0 hs0 hr hpfn how hlen' hin'
  obtain ⟨v0, c1, c2⟩ := newVec_memo (T := T) (n := n) hs0 hr
  obtain ⟨o, e1, e2⟩ := runAsks_memo a5 hin hs0 hr how hth hfit env g tmp ops hops 0 (fun _ => c2)
  obtain ⟨o', f1, f2⟩ := runAsks_memo b5 hin' hs0 hr how hth' hfit' env' g' tmp' ops hops 0 (fun _ => c2)
  have h := memoAsks_same hin hsame ops hfree (fun _ => ⟨fun _ => rfl, fun _ _ _ => rfl⟩) e1 f1
  refine ⟨out, D, out', D', v0, a1, b1, c1, ?_⟩
  cases o with
  | none =>
    cases o' with
    | none => exact .inl ⟨e2, f2⟩
    | some r => exact h.elim
  | some r =>
    cases o' with
    | none => exact h.elim
    | some r' =>
      obtain ⟨s, ans⟩ := r
      obtain ⟨s', ans'⟩ := r'
      obtain ⟨h1, rfl⟩ := h
      obtain ⟨d, e2, e3⟩ := e2
      obtain ⟨d', f2, f3⟩ := f2
      refine .inr ⟨d, d', ans, e2, f2, fun i => ⟨(s i).seen (fun w => getPartition n nseg w), ?_⟩⟩
      obtain ⟨x1, x2⟩ := DVec.reads hs0 hr (e3 i).wf (fun w h1 h2 => (e3 i).sem hs0 h1 h2)
      obtain ⟨y1, y2⟩ := DVec.reads hs0 hr (f3 i).wf (M := (s i).seen (fun w => getPartition n nseg w))
        (fun w k1 k2 => by rw [(f3 i).sem hs0 k1 k2, (h1 i).seen k1 k2])
      refine ⟨x1, by rw [y1, x1], fun w t k1 k2 hw => ?_⟩
      obtain ⟨p, p1, p2⟩ := x2 w t k1 k2 hw
      obtain ⟨q, q1, q2⟩ := y2 w t k1 k2 hw
      obtain rfl : p = q := Option.some.inj (p1.symm.trans q1)
      exact ⟨p, p1, p2, q2⟩

end

/-! ### Different layouts -/

section

variable {n c : Nat} {es es' : List (Edge E)}

theorem AskOp.step_same (hin : ∀ e ∈ es, InMat n n e) (hp : es.Perm es') (op : AskOp E T A) (hop : op.OrderFree) {s s' s1 s1' : Nat → Nat → Option T}
    (hs : ∀ v w, 1 ≤ w → w ≤ n → s v w = s' v w) {a a' : List (Answer A)} (h : op.Step c n es s s1 a) (h' : op.Step c n es' s' s1' a') :
    (∀ v w, 1 ≤ w → w ≤ n → s1 v w = s1' v w) ∧ a = a' := by
  have same : ∀ v, (⟨s v, fun _ => .used⟩ : Memo T).Same n ⟨s' v, fun _ => .used⟩ := fun v => ⟨fun _ => rfl, hs v⟩
  cases op with
  | count i =>
    obtain ⟨rfl, rfl⟩ := h
    obtain ⟨rfl, rfl⟩ := h'
    refine ⟨hs, ?_⟩
    congr 2
    apply List.countP_congr
    intro j hj
    rw [List.mem_range] at hj
    rw [hs i (j + 1) (by omega) (by omega)]
  | reduce m w op e i =>
    obtain ⟨h1, x, rfl, h2⟩ := h
    obtain ⟨h1', x', rfl, h2'⟩ := h'
    rw [mapValues_same (hs i)] at h2
    have := Reduces.same hop (.refl _) h2 h2'
    refine ⟨fun v w k1 k2 => ?_, by rw [Option.some.inj this]⟩
    rw [h1 v w k1 k2, h1' v w k1 k2, hs i w k1 k2, hs v w k1 k2]
  | call op =>
    obtain ⟨h, rfl⟩ := h
    obtain ⟨h', rfl⟩ := h'
    refine ⟨fun v w k1 k2 => ?_, rfl⟩
    have b := h v w k1 k2
    have b' := h' v w k1 k2
    cases op with
    | on i op =>
      simp only at b b'
      rw [b, b', hs v w k1 k2]
      congr 1
      cases op <;> simp only [VecOp.spec, hs i w k1 k2]
    | apply f i j =>
      simp only at b b'
      rw [b, b', hs v w k1 k2, hs i w k1 k2, hs j w k1 k2]
    | applySelf f i =>
      simp only at b b'
      rw [b, b', hs v w k1 k2, hs i w k1 k2]
    | intersect f i j k =>
      simp only at b b'
      rw [b, b', hs v w k1 k2, hs i w k1 k2, hs j w k1 k2]
    | mul pm add i j =>
      simp only at b b'
      split at b
      · next e =>
        subst e
        rw [if_pos rfl] at b'
        rw [hs v w k1 k2] at b
        exact Reduces.same hop ((Same.products hin hp (same i) pm w).append_left _) b b'
      · next e =>
        rw [if_neg e] at b'
        rw [b, b', hs v w k1 k2]
    | mul3 pm add i j k =>
      simp only at b b'
      split at b
      · next e =>
        subst e
        rw [if_pos rfl] at b'
        rw [hs v w k1 k2] at b
        exact Reduces.same hop ((Same.products3 hin hp (same i) (same j) pm k1 k2).append_left _) b b'
      · next e =>
        rw [if_neg e] at b'
        rw [b, b', hs v w k1 k2]

theorem askSteps_same (hin : ∀ e ∈ es, InMat n n e) (hp : es.Perm es') {ops : List (AskOp E T A)} {s s1 : Nat → Nat → Option T}
    {a : List (Answer A)} (h : AskSteps c n es ops s s1 a) : ∀ (_ : ∀ op ∈ ops, op.OrderFree) {s' s1' : Nat → Nat → Option T}
    {a' : List (Answer A)} (_ : ∀ v w, 1 ≤ w → w ≤ n → s v w = s' v w) (_ : AskSteps c n es' ops s' s1' a'),
    (∀ v w, 1 ≤ w → w ≤ n → s1 v w = s1' v w) ∧ a = a' := by
  induction h with
  | nil =>
    intro _ s' s1' a' hs h'
    cases h'
    exact ⟨hs, rfl⟩
  | cons x t ih =>
    intro hops s' s1' a' hs h'
    cases h' with
    | cons x' t' =>
      obtain ⟨b1, b2⟩ := AskOp.step_same hin hp _ (hops _ List.mem_cons_self) hs x x'
      obtain ⟨c1, c2⟩ := ih (fun o ho => hops o (List.mem_cons_of_mem _ ho)) b1 t'
      exact ⟨c1, by rw [b2, c2]⟩

end

section

variable {n nseg nseg' nrank nrank' : Nat} {pfn pfn' : Nat → Nat → Nat → Option Nat} {ow ow' : Nat → Nat → Nat} {srt srt' : Sorts E}
  {threads threads' : Nat} {blobs blobs' : List (List (Edge E))}

/-- C94, the part that holds: also with different numbers of ranks and parts and different placements of tiles, if the program respects the history
of its operands in both layouts (`AsksSafe`, C89) and its reductions begin with an identity.  Missing for the full property: programs that do not, see
`layout_matters`. -/
theorem program_layout_free_partial [Nonempty T] (hsrt : srt.OK) (hsrt' : srt'.OK) (gt gt' : Nat → Nat → Nat → TileFresh E)
    (hth : 0 < threads) (hth' : 0 < threads') (hs0 : 0 < nseg) (hs0' : 0 < nseg') (hr : 0 < nrank) (hr' : 0 < nrank')
    (hpfn : ∀ i j, pfn j i nrank = some (ow i j)) (hpfn' : ∀ i j, pfn' j i nrank' = some (ow' i j))
    (how : ∀ i j, ow i j < nrank) (how' : ∀ i j, ow' i j < nrank') (hlen : blobs.length = nrank) (hlen' : blobs'.length = nrank')
    (hsame : blobs.flatten.Perm blobs'.flatten) (hin : ∀ e ∈ blobs.flatten, InMat n n e) (hfit : n + threads ≤ IMAX)
    (hfit' : n + threads' ≤ IMAX) (env env' : Nat → MulEnv T T T) (g g' : Nat → Nat → Nat → Fresh T) (tmp tmp' : Nat → Nat → Nat → Nat → A)
    (ops : List (AskOp E T A)) (hops : ∀ op ∈ ops, op.Valid n) (hfree : ∀ op ∈ ops, op.OrderFree)
    (hone : nrank = 1 ∧ nrank' = 1 ∨ ∀ op ∈ ops, op.Neutral)
    (hsafe : AsksSafe 1 n nseg (SharedX nseg nrank ow) (SharedV nseg nrank ow) (fun w => getPartition n nseg w) blobs.flatten ops
      (fun _ _ => .never) (fun _ _ => none))
    (hsafe' : AsksSafe 1 n nseg' (SharedX nseg' nrank' ow') (SharedV nseg' nrank' ow') (fun w => getPartition n nseg' w) blobs'.flatten ops
      (fun _ _ => .never) (fun _ _ => none)) :
    ∃ out D out' D' v0 v0' d d' answers, DMat.ofEdges n n nseg nseg nrank pfn srt gt threads blobs = some (out, D) ∧
      DMat.ofEdges n n nseg' nseg' nrank' pfn' srt' gt' threads' blobs' = some (out', D') ∧
      DVec.new n nseg nrank = some v0 ∧ DVec.new n nseg' nrank' = some v0' ∧
      runAsks env g tmp threads nrank D 0 ops (fun _ => v0) = some (d, answers) ∧
      runAsks env' g' tmp' threads' nrank' D' 0 ops (fun _ => v0') = some (d', answers) ∧
      ∀ i, ∃ M : Nat → Option T,
        (d i).getNNZ = some ((List.range n).countP (fun j => (M (j + 1)).isSome)) ∧ (d' i).getNNZ = (d i).getNNZ ∧
        ∀ w t, 1 ≤ w → w ≤ n → M w = some t → ∃ p p', getPartition n nseg w = some p ∧ getPartition n nseg' w = some p' ∧
          ((d i).get (p % nrank)).get w = some (some t) ∧ ((d' i).get (p' % nrank')).get w = some (some t) := by
  have hin' : ∀ e ∈ blobs'.flatten, InMat n n e := fun e he => hin e (hsame.mem_iff.mpr he)
  obtain ⟨out, D, v0, d, a, a1, a2, a3, s, a4, a5⟩ := ask_program_partial hsrt gt hth hs0 hr hpfn how hlen hin hfit env g tmp ops hops
    (hone.imp And.left id) hsafe
  obtain ⟨out', D', v0', d', a', b1, b2, b3, s', b4, b5⟩ := ask_program_partial hsrt' gt' hth' hs0' hr' hpfn' how' hlen' hin' hfit' env' g' tmp' ops
    hops (hone.imp And.right id) hsafe'
  obtain ⟨c1, rfl⟩ := askSteps_same hin hsame a4 hfree (fun _ _ _ _ => rfl) b4
  refine ⟨out, D, out', D', v0, v0', d, d', a, a1, b1, a2, b2, a3, b3, fun i => ⟨s i, (a5 i).1, ?_, fun w t k1 k2 hw => ?_⟩⟩
  · rw [(a5 i).1, (b5 i).1]
    congr 1
    apply List.countP_congr
    intro j hj
    rw [List.mem_range] at hj
    rw [c1 i (j + 1) (by omega) (by omega)]
  · obtain ⟨p, p1, p2⟩ := (a5 i).2 w t k1 k2 hw
    obtain ⟨q, q1, q2⟩ := (b5 i).2 w t k1 k2 (by rw [← c1 i w k1 k2]; exact hw)
    exact ⟨p, q, p1, q1, p2, q2⟩

end

/-! ### Runs of programs -/

/-- A program that multiplies twice, clears an operand in between, and asks. -/
def askSame : List (AskOp Nat Nat Nat) :=
  [.call (.on 0 (.setAll 5)), .call (.mul (fun e x => e * x) (· + ·) 0 1), .reduce id id (· + ·) 3 1, .call (.on 0 .clear),
   .call (.mul (fun e x => e + x) max 0 1), .reduce id id (· + ·) 3 1, .count 0]

theorem askSame_free : ∀ op ∈ askSame, op.OrderFree := by
  intro op h
  simp [askSame] at h
  rcases h with rfl | rfl | rfl | rfl | rfl | rfl | rfl <;>
    first
    | exact trivial
    | exact ⟨Nat.add_assoc, Nat.add_comm⟩
    | exact ⟨Nat.max_assoc, Nat.max_comm⟩

/-- The hypotheses of `program_has_one_result`: the entries in another order and from the other rank, other numbers of threads, other contents of
memory. -/
example := program_has_one_result (n := 3) (nseg := 2) (nrank := 2) (pfn := partitionFn1d) (ow := fun i _ => i % 2) Sorts.ins_ok Sorts.ins_ok
  (fun _ _ _ => (LoadEnv.sample (E := Nat) 0 0).gA 0 0 0) (fun _ _ _ => (LoadEnv.sample (E := Nat) 7 9).gA 0 0 0) (threads := 1) (threads' := 3)
  (by decide) (by decide) (by decide) (by decide) (fun _ _ => rfl) (fun _ _ => Nat.mod_lt _ (by decide)) (blobs := [sampleMulEdges, []])
  (blobs' := [[], sampleMulEdges.reverse]) rfl rfl (by simp) (by unfold InMat; decide) (by decide)
  (by decide) (fun _ => MulEnv.sample 0 0 0) (fun _ => MulEnv.sample 1 2 3) (fun _ _ _ => Fresh.sample 7) (fun _ _ _ => Fresh.sample 8)
  (fun _ _ _ _ => 4) (fun _ _ _ _ => 6) askSame (by simp [askSame, AskOp.Valid, VarOp.Valid, VecOp.Valid]) askSame_free

/-- A repeated entry, in both orders: with the operator that keeps the later value the answers differ. -/
theorem order_matters :
    sampleAsks 3 1 [⟨1, 2, 10⟩, ⟨1, 2, 20⟩] [.call (.on 0 (.setAll 5)), .call (.mul (fun e x => e + x) (fun _ b => b) 0 1), .reduce id id (· + ·) 0 1] 9 ≠
    sampleAsks 3 1 [⟨1, 2, 20⟩, ⟨1, 2, 10⟩] [.call (.on 0 (.setAll 5)), .call (.mul (fun e x => e + x) (fun _ b => b) 0 1), .reduce id id (· + ·) 0 1] 9 := by
  decide +kernel

/-- **C94 is false**: a program with order-free operators, whose reductions begin with an identity, gives different answers on one rank and on two.  The operand
of the product was cleared; on one rank its old values are used, on two ranks it is sent, which removes them. -/
theorem layout_matters : ∃ ops : List (AskOp Nat Nat Nat), (∀ op ∈ ops, op.Valid 3 ∧ op.OrderFree ∧ op.Neutral) ∧
    sampleAsks 3 1 sampleMulEdges ops 9 = some [.val 90] ∧ sampleAsks 3 2 sampleMulEdges ops 9 = some [.val 0] := by
  refine ⟨[.call (.on 0 (.setAll 5)), .call (.on 0 .clear), .call (.mul (fun e x => e * x) (· + ·) 0 1), .reduce id id (· + ·) 0 1], ?_, ?_⟩
  · intro op h
    simp at h
    rcases h with rfl | rfl | rfl | rfl
    · exact ⟨trivial, trivial, trivial⟩
    · exact ⟨trivial, trivial, trivial⟩
    · exact ⟨by simp [AskOp.Valid, VarOp.Valid], ⟨Nat.add_assoc, Nat.add_comm⟩, trivial⟩
    · exact ⟨trivial, ⟨Nat.add_assoc, Nat.add_comm⟩, Nat.add_assoc, Nat.add_comm, Nat.zero_add⟩
  · decide +kernel

/-- A program that writes its operands before it uses them. -/
def askWritten : List (AskOp Nat Nat Nat) :=
  [.call (.on 0 (.setAll 5)), .call (.mul (fun e x => e * x) (· + ·) 0 1), .reduce id (· + 1) (· + ·) 0 1, .call (.apply (· * 2) 1 2),
   .reduce id id max 0 2, .count 2]

/-- It respects the history of its operands in every layout. -/
theorem askWritten_safe (n nseg : Nat) (sx sv : Nat → Prop) (part : Nat → Option Nat) (es : List (Edge Nat)) :
    AsksSafe 1 n nseg sx sv part es askWritten (fun _ _ => .never) (fun _ _ => none) :=
  ⟨trivial, fun _ _ _ => ⟨fun _ _ => .inl rfl, fun _ _ _ => ⟨trivial, fun _ _ _ => ⟨fun _ _ => rfl, fun _ _ _ =>
    ⟨trivial, fun _ _ _ => ⟨trivial, fun _ _ _ => trivial⟩⟩⟩⟩⟩⟩

theorem askWritten_free : ∀ op ∈ askWritten, op.OrderFree ∧ op.Neutral := by
  intro op h
  simp [askWritten] at h
  rcases h with rfl | rfl | rfl | rfl | rfl | rfl
  · exact ⟨trivial, trivial⟩
  · exact ⟨⟨Nat.add_assoc, Nat.add_comm⟩, trivial⟩
  · exact ⟨⟨Nat.add_assoc, Nat.add_comm⟩, Nat.add_assoc, Nat.add_comm, Nat.zero_add⟩
  · exact ⟨trivial, trivial⟩
  · exact ⟨⟨Nat.max_assoc, Nat.max_comm⟩, Nat.max_assoc, Nat.max_comm, Nat.zero_max⟩
  · exact ⟨trivial, trivial⟩

/-- The hypotheses of `program_layout_free_partial`: one rank, and two ranks with three parts and the entries in another order. -/
example := program_layout_free_partial (n := 3) (nseg := 1) (nseg' := 3) (nrank := 1) (nrank' := 2) (pfn := partitionFn1d) (pfn' := partitionFn1d)
  (ow := fun i _ => i % 1) (ow' := fun i _ => i % 2) Sorts.ins_ok Sorts.ins_ok (fun _ _ _ => (LoadEnv.sample (E := Nat) 0 0).gA 0 0 0)
  (fun _ _ _ => (LoadEnv.sample (E := Nat) 7 9).gA 0 0 0) (threads := 1) (threads' := 3) (by decide) (by decide) (by decide) (by decide) (by decide)
  (by decide) (fun _ _ => rfl) (fun _ _ => rfl) (fun _ _ => Nat.mod_lt _ (by decide)) (fun _ _ => Nat.mod_lt _ (by decide))
  (blobs := [sampleMulEdges]) (blobs' := [[], sampleMulEdges.reverse]) rfl rfl (by simp) (by unfold InMat; decide) (by decide) (by decide)
  (fun _ => MulEnv.sample 0 0 0) (fun _ => MulEnv.sample 1 2 3) (fun _ _ _ => Fresh.sample 7) (fun _ _ _ => Fresh.sample 8)
  (fun _ _ _ _ => 4) (fun _ _ _ _ => 6) askWritten (by simp [askWritten, AskOp.Valid, VarOp.Valid, VecOp.Valid])
  (fun op h => (askWritten_free op h).1) (.inr fun op h => (askWritten_free op h).2) (askWritten_safe _ _ _ _ _ _) (askWritten_safe _ _ _ _ _ _)

/-- The answers of both programs. -/
example : sampleAsks 3 1 sampleMulEdges askWritten 9 = sampleAsks 3 3 sampleMulEdges.reverse askWritten 8 ∧
    sampleAsks 3 1 sampleMulEdges askWritten 9 = some [.val 90, .val 172, .num 2] ∧
    sampleAsks 3 2 sampleMulEdges askSame 9 = sampleAsks 3 2 sampleMulEdges.reverse askSame 8 ∧
    sampleAsks 3 2 sampleMulEdges askSame 9 = some [.val 96, .val 96, .num 0] := by
  decide +kernel

end GraphMat
