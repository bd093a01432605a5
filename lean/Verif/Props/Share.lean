import Verif.Lemmas.Share

/-!
# Sharing vertex properties

C47: histories of `shareVertexProperty` and destruction.  The claim holds for the histories of `ShStep` and fails for
others.
-/
namespace GraphMat

variable {X : Type}

/-- No object exists yet. -/
def ShState.start (v : Nat → X) : ShState X := ⟨fun _ => .dead, v⟩

/-- C47, for careful callers (`ShStep`): no call reads through a dangling pointer or deletes a vector that is gone;
what is read through an object is what was last written through any object sharing its properties; no vector is
deleted twice, and once all objects are destroyed every vector ever created has been deleted exactly once.

Missing from the full claim are the histories in which an object that already shares is made to share again, an object
is destroyed or starts sharing while others share its vector, an object shares with itself, or an object is loaded
again: for these the claim is false, see below. -/
theorem sharing_safe_partial (v : Nat → X) {ops : List (ShOp X)} {outs : List X} {s : ShState X}
    (h : ShRun (ShState.start v) ops outs s) :
    ∃ w, PWorld.start.run ops = some (w, outs) ∧ (∀ p, w.heap.frees p ≤ 1) ∧
      ((∀ g, s.st g = .dead) → ∀ p, p < w.heap.next → w.heap.frees p = 1) := by
  obtain ⟨w, ptr, h1, h2⟩ := (ShInv.start v).run h
  refine ⟨w, h1, fun p => ?_, fun hd p hp => ?_⟩
  · by_cases hp : p < w.heap.next
    · by_cases ho : ∀ g, s.st g = .own → ptr g ≠ p
      · rw [(h2.gone p hp ho).2]; omega
      · have : ∃ g, s.st g = .own ∧ ptr g = p := by
          by_contra hn
          exact ho (fun g hg e => hn ⟨g, hg, e⟩)
        obtain ⟨g, hg, e⟩ := this
        rw [← e, (h2.own g hg).2.2.2]; omega
    · rw [(h2.fresh p (by omega)).2]; omega
  · exact (h2.gone p hp (fun g hg => by rw [hd g] at hg; cases hg)).2

/-- C47 fails: after any careful history in which `g` shares the properties of `k`, the call
`g.shareVertexProperty(h)`, for any `h`, deletes the vector of `k`: then reading the properties of `k` is a use after
free and destroying `k` deletes the vector a second time. -/
theorem share_again_breaks_lender (v : Nat → X) {ops : List (ShOp X)} {outs : List X} {s : ShState X}
    (hr : ShRun (ShState.start v) ops outs s) {g h k : Nat} (hg : s.st g = .borrow k) (hh : s.st h ≠ .dead) :
    (∃ r, PWorld.start.run (ops ++ [.share g h]) = some r) ∧
    PWorld.start.run (ops ++ [.share g h, .read k]) = none ∧
    PWorld.start.run (ops ++ [.share g h, .destroy k]) = none := by
  obtain ⟨w, ptr, h1, h2⟩ := (ShInv.start v).run hr
  have happ : ∀ (ops : List (ShOp X)) (w0 : PWorld X) (w : PWorld X) (outs : List X) (l : List (ShOp X)),
      w0.run ops = some (w, outs) → w0.run (ops ++ l) = (w.run l).bind (fun r => some (r.1, outs ++ r.2)) := by
    intro ops
    induction ops with
    | nil =>
      intro w0 w outs l hw
      cases hw
      rw [List.nil_append]
      cases w0.run l <;> rfl
    | cons op ops ih =>
      intro w0 w outs l hw
      simp only [PWorld.run, List.cons_append, Option.bind_eq_bind] at hw ⊢
      cases hst : w0.step op with
      | none => rw [hst] at hw; cases hw
      | some r =>
        rw [hst, Option.bind_some] at hw
        rw [Option.bind_some]
        cases hrun : r.1.run ops with
        | none => rw [hrun] at hw; cases hw
        | some r' =>
          rw [hrun] at hw
          have e1 : r'.1 = w := by
            have := congrArg (Option.map Prod.fst) hw
            exact Option.some.inj this
          have e2 : r.2.toList ++ r'.2 = outs := by
            have := congrArg (Option.map Prod.snd) hw
            exact Option.some.inj this
          rw [ih r.1 r'.1 r'.2 l hrun, e1, ← e2]
          cases w.run l with
          | none => rfl
          | some x => simp
  obtain ⟨g1, hk⟩ := h2.borrow g k hg
  obtain ⟨k1, _, k3, _⟩ := h2.own k hk
  have hobj : ∃ o, w.obj h = some o := by
    cases hs : s.st h with
    | dead => exact absurd hs hh
    | empty => exact ⟨_, h2.empty h hs⟩
    | own => exact ⟨_, (h2.own h hs).1⟩
    | borrow q => exact ⟨_, (h2.borrow h q hs).1⟩
  obtain ⟨o, ho⟩ := hobj
  have hkg : k ≠ g := by
    intro e
    rw [e] at hk
    rw [hk] at hg
    cases hg
  let H : PHeap X := { w.heap with cell := Function.update w.heap.cell (ptr k) none,
                                   frees := Function.update w.heap.frees (ptr k) (w.heap.frees (ptr k) + 1) }
  let w' : PWorld X := ⟨Function.update w.obj g (some ⟨o.vp, false⟩), H⟩
  have hstep : w.step (.share g h) = some (w', none) := by
    simp only [PWorld.step, Option.bind_eq_bind]
    rw [g1, Option.bind_some, ho, Option.bind_some]
    show ((w.heap.delete (ptr k)).bind _) = _
    rw [PHeap.delete_some k3, Option.bind_some, Option.bind_some]
  have hk' : w'.obj k = some ⟨some (ptr k), true⟩ := by
    show Function.update w.obj g _ k = _
    rw [Function.update_of_ne hkg]; exact k1
  have hc' : w'.heap.cell (ptr k) = none := Function.update_self ..
  have hread : w'.step (.read k) = none := by
    simp only [PWorld.step, Option.bind_eq_bind]
    rw [hk', Option.bind_some, Option.bind_some, hc', Option.bind_none]
  have hdestroy : w'.step (.destroy k) = none := by
    simp only [PWorld.step, Option.bind_eq_bind]
    rw [hk', Option.bind_some]
    show ((w'.heap.delete (ptr k)).bind _) = _
    rw [PHeap.delete_none hc', Option.bind_none]
  refine ⟨?_, ?_, ?_⟩
  · rw [happ ops _ w outs _ h1]
    simp only [PWorld.run, Option.bind_eq_bind]
    rw [hstep]
    exact ⟨_, rfl⟩
  · rw [happ ops _ w outs _ h1]
    simp only [PWorld.run, Option.bind_eq_bind]
    rw [hstep, Option.bind_some, hread]
    rfl
  · rw [happ ops _ w outs _ h1]
    simp only [PWorld.run, Option.bind_eq_bind]
    rw [hstep, Option.bind_some, hdestroy]
    rfl

/-- The calls of the theorem above in one program: two graphs, `g1.shareVertexProperty(g0)` made twice, both
destroyed at the end. -/
theorem sharing_twice_double_free (x y : X) :
    PWorld.start.run [.construct 0, .load 0 x, .construct 1, .load 1 y, .share 1 0, .share 1 0, .destroy 1, .destroy 0] =
      none := rfl

/-- C47 fails for other reasons too: a graph that outlives the one it shares with reads freed memory (and so does one
that shares with itself), and loading a graph a second time leaks the first vector. -/
theorem sharing_other_failures (x y : X) :
    PWorld.start.run [.construct 0, .load 0 x, .construct 1, .share 1 0, .destroy 0, .read 1] = none ∧
    PWorld.start.run [.construct 0, .load 0 x, .share 0 0, .read 0] = none ∧
    ∃ w, PWorld.start.run [.construct 0, .load 0 x, .load 0 y, .destroy 0] = some (w, []) ∧ w.obj 0 = none ∧
      w.heap.next = 2 ∧ w.heap.frees 0 = 0 :=
  ⟨rfl, rfl, _, rfl, rfl, rfl, rfl⟩

/-! ### Examples -/

/-- The use made by `DeltaStepping.cpp` (line 142), with a write through one graph seen through the other. -/
example : ∃ s, ShRun (ShState.start (fun _ => 0))
    [.construct 0, .load 0 3, .construct 1, .load 1 4, .share 1 0, .write 1 (· + 10), .read 0, .destroy 1, .read 0,
     .destroy 0] [13, 13] s ∧ ∀ g, s.st g = .dead := by
  refine ⟨_, .cons (.construct rfl) (.cons (.load (.inl rfl)) (.cons (.construct rfl) (.cons (.load (.inl rfl))
    (.cons (.share (k := 0) (.inr rfl) ?_ (by decide) rfl) (.cons (.write (k := 0) rfl) (.cons (.read (k := 0) rfl)
    (.cons (.destroy (by decide) ?_) (.cons (.read (k := 0) rfl) (.cons (.destroy (by decide) ?_) (.nil _)))))))))), ?_⟩
  all_goals
    intro h
    by_cases h0 : h = 0
    · subst h0; simp [Function.update]
    · by_cases h1 : h = 1
      · subst h1; simp [Function.update]
      · simp [ShState.start, Function.update, h0, h1]

/-- A history as in `share_again_breaks_lender`: graph 1 shares the properties of graph 0, graph 2 has properties of its own. -/
example : ∃ s, ShRun (ShState.start (fun _ => 0))
    [.construct 0, .load 0 3, .construct 1, .construct 2, .load 2 5, .share 1 0, .read 1] [3] s ∧
    s.st 1 = .borrow 0 ∧ s.st 2 ≠ .dead := by
  refine ⟨_, .cons (.construct rfl) (.cons (.load (.inl rfl)) (.cons (.construct rfl) (.cons (.construct rfl) (.cons (.load (.inl rfl))
    (.cons (.share (k := 0) (.inl rfl) ?_ (by decide) rfl) (.cons (.read (k := 0) rfl) (.nil _))))))), ?_, ?_⟩
  · intro h
    by_cases h0 : h = 0
    · subst h0; simp [Function.update]
    · by_cases h1 : h = 1
      · subst h1; simp [Function.update]
      · by_cases h2 : h = 2
        · subst h2; simp [Function.update]
        · simp [ShState.start, Function.update, h0, h1, h2]
  · simp [Function.update]
  · simp [Function.update]

end GraphMat
