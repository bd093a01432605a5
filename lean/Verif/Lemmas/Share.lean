import Verif.Spec.Share

/-! # Lemmas about shared property vectors -/
namespace GraphMat

variable {X : Type}

/-- The heap and the objects are what the states of the objects say; the object `g` owns vector `ptr g`. -/
structure ShInv (s : ShState X) (w : PWorld X) (ptr : Nat → Nat) : Prop where
  dead : ∀ g, s.st g = .dead → w.obj g = none
  empty : ∀ g, s.st g = .empty → w.obj g = some ⟨none, true⟩
  own : ∀ g, s.st g = .own → w.obj g = some ⟨some (ptr g), true⟩ ∧ ptr g < w.heap.next ∧
    w.heap.cell (ptr g) = some (s.val g) ∧ w.heap.frees (ptr g) = 0
  borrow : ∀ g k, s.st g = .borrow k → w.obj g = some ⟨some (ptr k), false⟩ ∧ s.st k = .own
  inj : ∀ g h, s.st g = .own → s.st h = .own → ptr g = ptr h → g = h
  gone : ∀ p, p < w.heap.next → (∀ g, s.st g = .own → ptr g ≠ p) → w.heap.cell p = none ∧ w.heap.frees p = 1
  fresh : ∀ p, w.heap.next ≤ p → w.heap.cell p = none ∧ w.heap.frees p = 0

theorem ShInv.root {s : ShState X} {w : PWorld X} {ptr : Nat → Nat} (h : ShInv s w ptr) {g k : Nat}
    (hr : s.root g = some k) : s.st k = .own ∧ ∃ b, w.obj g = some ⟨some (ptr k), b⟩ := by
  unfold ShState.root at hr
  cases hs : s.st g with
  | dead => rw [hs] at hr; cases hr
  | empty => rw [hs] at hr; cases hr
  | own =>
    rw [hs] at hr
    cases hr
    exact ⟨hs, true, (h.own g hs).1⟩
  | borrow k' =>
    rw [hs] at hr
    cases hr
    exact ⟨(h.borrow g k hs).2, false, (h.borrow g k hs).1⟩

theorem PHeap.delete_some {H : PHeap X} {p : Nat} {x : X} (h : H.cell p = some x) :
    H.delete p = some { H with cell := Function.update H.cell p none, frees := Function.update H.frees p (H.frees p + 1) } := by
  unfold PHeap.delete
  rw [Option.bind_eq_bind, h, Option.bind_some]

theorem PHeap.delete_none {H : PHeap X} {p : Nat} (h : H.cell p = none) : H.delete p = none := by
  unfold PHeap.delete
  rw [Option.bind_eq_bind, h, Option.bind_none]

/-- An object that nobody borrows from loses its own properties. -/
theorem ShInv.release {s : ShState X} {w : PWorld X} {ptr : Nat → Nat} (h : ShInv s w ptr) {g : Nat} (hg : s.st g = .own)
    (hfree : s.Free g) {st' : ShStatus} {o : Option GObj} (hno : st' ≠ .own)
    (h1 : st' = .dead → o = none) (h2 : st' = .empty → o = some ⟨none, true⟩)
    (h3 : ∀ k, st' = .borrow k → k ≠ g ∧ s.st k = .own ∧ o = some ⟨some (ptr k), false⟩) :
    ShInv { s with st := Function.update s.st g st' }
      ⟨Function.update w.obj g o, { w.heap with
        cell := Function.update w.heap.cell (ptr g) none,
        frees := Function.update w.heap.frees (ptr g) (w.heap.frees (ptr g) + 1) }⟩ ptr := by
  obtain ⟨_, hlt, hc, hf⟩ := h.own g hg
  have hown : ∀ k, Function.update s.st g st' k = .own → k ≠ g ∧ s.st k = .own ∧ ptr k ≠ ptr g := by
    intro k hk
    by_cases hkg : k = g
    · subst hkg
      rw [Function.update_self] at hk
      exact absurd hk hno
    · rw [Function.update_of_ne hkg] at hk
      exact ⟨hkg, hk, fun e => hkg (h.inj k g hk hg e)⟩
  constructor
  · intro k hk
    show Function.update w.obj g o k = none
    have hk : Function.update s.st g st' k = .dead := hk
    by_cases hkg : k = g
    · subst hkg
      rw [Function.update_self] at hk ⊢
      exact h1 hk
    · rw [Function.update_of_ne hkg] at hk ⊢
      exact h.dead k hk
  · intro k hk
    show Function.update w.obj g o k = _
    have hk : Function.update s.st g st' k = .empty := hk
    by_cases hkg : k = g
    · subst hkg
      rw [Function.update_self] at hk ⊢
      exact h2 hk
    · rw [Function.update_of_ne hkg] at hk ⊢
      exact h.empty k hk
  · intro k hk
    obtain ⟨a1, a2, a3⟩ := hown k hk
    obtain ⟨b1, b2, b3, b4⟩ := h.own k a2
    refine ⟨?_, b2, ?_, ?_⟩
    · show Function.update w.obj g o k = _
      rw [Function.update_of_ne a1]; exact b1
    · show Function.update w.heap.cell _ _ _ = _
      rw [Function.update_of_ne a3]; exact b3
    · show Function.update w.heap.frees _ _ _ = _
      rw [Function.update_of_ne a3]; exact b4
  · intro k q hk
    have hk : Function.update s.st g st' k = .borrow q := hk
    show Function.update w.obj g o k = _ ∧ Function.update s.st g st' q = .own
    by_cases hkg : k = g
    · subst hkg
      rw [Function.update_self] at hk
      obtain ⟨c1, c2, c3⟩ := h3 q hk
      rw [Function.update_self, Function.update_of_ne c1]
      exact ⟨c3, c2⟩
    · rw [Function.update_of_ne hkg] at hk
      have hq : q ≠ g := fun e => hfree k (e ▸ hk)
      rw [Function.update_of_ne hkg, Function.update_of_ne hq]
      exact h.borrow k q hk
  · intro a b ha hb e
    exact h.inj a b (hown a ha).2.1 (hown b hb).2.1 e
  · intro p hp hn
    show Function.update w.heap.cell _ _ _ = none ∧ Function.update w.heap.frees _ _ _ = 1
    by_cases hpg : p = ptr g
    · rw [hpg, Function.update_self, Function.update_self, hf]
      exact ⟨rfl, rfl⟩
    · rw [Function.update_of_ne hpg, Function.update_of_ne hpg]
      refine h.gone p hp (fun k hk => ?_)
      by_cases hkg : k = g
      · rw [hkg]; exact fun e => hpg e.symm
      · exact hn k (by show Function.update s.st g st' k = _; rw [Function.update_of_ne hkg]; exact hk)
  · intro p hp
    show Function.update w.heap.cell _ _ _ = none ∧ Function.update w.heap.frees _ _ _ = 0
    have : p ≠ ptr g := by
      have hp : w.heap.next ≤ p := hp
      omega
    rw [Function.update_of_ne this, Function.update_of_ne this]
    exact h.fresh p hp

/-- An object without own properties changes its status. -/
theorem ShInv.change {s : ShState X} {w : PWorld X} {ptr : Nat → Nat} (h : ShInv s w ptr) {g : Nat} (hg : s.st g ≠ .own)
    {st' : ShStatus} {o : Option GObj} (hno : st' ≠ .own)
    (h1 : st' = .dead → o = none) (h2 : st' = .empty → o = some ⟨none, true⟩)
    (h3 : ∀ k, st' = .borrow k → s.st k = .own ∧ o = some ⟨some (ptr k), false⟩) :
    ShInv { s with st := Function.update s.st g st' } ⟨Function.update w.obj g o, w.heap⟩ ptr := by
  have hown : ∀ k, Function.update s.st g st' k = .own → k ≠ g ∧ s.st k = .own := by
    intro k hk
    by_cases hkg : k = g
    · subst hkg
      rw [Function.update_self] at hk
      exact absurd hk hno
    · rw [Function.update_of_ne hkg] at hk
      exact ⟨hkg, hk⟩
  have hne : ∀ k, s.st k = .own → k ≠ g := fun k hk e => hg (e ▸ hk)
  constructor
  · intro k hk
    show Function.update w.obj g o k = none
    have hk : Function.update s.st g st' k = .dead := hk
    by_cases hkg : k = g
    · subst hkg
      rw [Function.update_self] at hk ⊢
      exact h1 hk
    · rw [Function.update_of_ne hkg] at hk ⊢
      exact h.dead k hk
  · intro k hk
    show Function.update w.obj g o k = _
    have hk : Function.update s.st g st' k = .empty := hk
    by_cases hkg : k = g
    · subst hkg
      rw [Function.update_self] at hk ⊢
      exact h2 hk
    · rw [Function.update_of_ne hkg] at hk ⊢
      exact h.empty k hk
  · intro k hk
    obtain ⟨a1, a2⟩ := hown k hk
    obtain ⟨b1, b2⟩ := h.own k a2
    refine ⟨?_, b2⟩
    show Function.update w.obj g o k = _
    rw [Function.update_of_ne a1]; exact b1
  · intro k q hk
    have hk : Function.update s.st g st' k = .borrow q := hk
    show Function.update w.obj g o k = _ ∧ Function.update s.st g st' q = .own
    by_cases hkg : k = g
    · subst hkg
      rw [Function.update_self] at hk
      obtain ⟨c2, c3⟩ := h3 q hk
      rw [Function.update_self, Function.update_of_ne (hne q c2)]
      exact ⟨c3, c2⟩
    · rw [Function.update_of_ne hkg] at hk
      obtain ⟨d1, d2⟩ := h.borrow k q hk
      rw [Function.update_of_ne hkg, Function.update_of_ne (hne q d2)]
      exact ⟨d1, d2⟩
  · intro a b ha hb e
    exact h.inj a b (hown a ha).2 (hown b hb).2 e
  · intro p hp hn
    refine h.gone p hp (fun k hk => ?_)
    exact hn k (by show Function.update s.st g st' k = _; rw [Function.update_of_ne (hne k hk)]; exact hk)
  · exact h.fresh

/-- One call. -/
theorem ShInv.step {s s' : ShState X} {w : PWorld X} {ptr : Nat → Nat} {op : ShOp X} {out : Option X} (h : ShInv s w ptr)
    (hs : ShStep s op out s') : ∃ w' ptr', w.step op = some (w', out) ∧ ShInv s' w' ptr' := by
  cases hs with
  | @construct g hd =>
    refine ⟨_, ptr, ?_, h.change (g := g) (o := some ⟨none, true⟩) (by rw [hd]; simp) (by simp) (by simp) (fun _ => rfl) (by simp)⟩
    simp only [PWorld.step]
    rw [h.dead g hd]
  | @load g x hg =>
    have hobj : ∃ o, w.obj g = some o := by
      rcases hg with hg | ⟨k, hg⟩
      · exact ⟨_, h.empty g hg⟩
      · exact ⟨_, (h.borrow g k hg).1⟩
    obtain ⟨o, ho⟩ := hobj
    have hno : s.st g ≠ .own := by
      rcases hg with hg | ⟨k, hg⟩ <;> rw [hg] <;> simp
    have hne : ∀ k, s.st k = .own → k ≠ g := fun k hk e => hno (e ▸ hk)
    refine ⟨⟨Function.update w.obj g (some ⟨some w.heap.next, true⟩), (w.heap.new x).2⟩,
      Function.update ptr g w.heap.next, ?_, ?_⟩
    · simp only [PWorld.step, Option.bind_eq_bind]
      rw [ho, Option.bind_some]
      rfl
    · have hown : ∀ k, Function.update s.st g ShStatus.own k = .own → k ≠ g → s.st k = .own := by
        intro k hk hkg
        rw [Function.update_of_ne hkg] at hk
        exact hk
      constructor
      · intro k hk
        have hk : Function.update s.st g ShStatus.own k = .dead := hk
        show Function.update w.obj g _ k = none
        by_cases hkg : k = g
        · subst hkg; rw [Function.update_self] at hk; cases hk
        · rw [Function.update_of_ne hkg] at hk ⊢
          exact h.dead k hk
      · intro k hk
        have hk : Function.update s.st g ShStatus.own k = .empty := hk
        show Function.update w.obj g _ k = _
        by_cases hkg : k = g
        · subst hkg; rw [Function.update_self] at hk; cases hk
        · rw [Function.update_of_ne hkg] at hk ⊢
          exact h.empty k hk
      · intro k hk
        show Function.update w.obj g _ k = _ ∧ Function.update ptr g w.heap.next k < w.heap.next + 1 ∧
          Function.update w.heap.cell w.heap.next (some x) (Function.update ptr g w.heap.next k) =
            some (Function.update s.val g x k) ∧ w.heap.frees (Function.update ptr g w.heap.next k) = 0
        by_cases hkg : k = g
        · subst hkg
          rw [Function.update_self, Function.update_self, Function.update_self, Function.update_self]
          exact ⟨rfl, by omega, rfl, (h.fresh _ (Nat.le_refl _)).2⟩
        · obtain ⟨b1, b2, b3, b4⟩ := h.own k (hown k hk hkg)
          rw [Function.update_of_ne hkg, Function.update_of_ne hkg, Function.update_of_ne hkg,
            Function.update_of_ne (by omega)]
          exact ⟨b1, by omega, b3, b4⟩
      · intro k q hk
        have hk : Function.update s.st g ShStatus.own k = .borrow q := hk
        show Function.update w.obj g _ k = some ⟨some (Function.update ptr g w.heap.next q), false⟩ ∧
          Function.update s.st g ShStatus.own q = .own
        by_cases hkg : k = g
        · subst hkg; rw [Function.update_self] at hk; cases hk
        · rw [Function.update_of_ne hkg] at hk
          obtain ⟨b1, b2⟩ := h.borrow k q hk
          rw [Function.update_of_ne hkg, Function.update_of_ne (hne q b2), Function.update_of_ne (hne q b2)]
          exact ⟨b1, b2⟩
      · intro a b ha hb e
        by_cases hag : a = g
        · by_cases hbg : b = g
          · rw [hag, hbg]
          · subst hag
            rw [Function.update_self, Function.update_of_ne hbg] at e
            have := (h.own b (hown b hb hbg)).2.1
            omega
        · rw [Function.update_of_ne hag] at e
          by_cases hbg : b = g
          · subst hbg
            rw [Function.update_self] at e
            have := (h.own a (hown a ha hag)).2.1
            omega
          · rw [Function.update_of_ne hbg] at e
            exact h.inj a b (hown a ha hag) (hown b hb hbg) e
      · intro p hp hn
        have hp : p < w.heap.next + 1 := hp
        show Function.update w.heap.cell w.heap.next (some x) p = none ∧ w.heap.frees p = 1
        have hpn : p ≠ w.heap.next := by
          have := hn g (by show Function.update s.st g ShStatus.own g = _; rw [Function.update_self])
          rw [Function.update_self] at this
          exact fun e => this e.symm
        rw [Function.update_of_ne hpn]
        refine h.gone p (by omega) (fun k hk => ?_)
        have := hn k (by show Function.update s.st g ShStatus.own k = _; rw [Function.update_of_ne (hne k hk)]; exact hk)
        rw [Function.update_of_ne (hne k hk)] at this
        exact this
      · intro p hp
        have hp : w.heap.next + 1 ≤ p := hp
        show Function.update w.heap.cell w.heap.next (some x) p = none ∧ w.heap.frees p = 0
        rw [Function.update_of_ne (by omega)]
        exact h.fresh p (by omega)
  | @share g h' k hg hfree hne hroot =>
    obtain ⟨hk, b, hobj⟩ := h.root hroot
    have hkg : k ≠ g := by
      intro e
      subst e
      unfold ShState.root at hroot
      cases hs : s.st h' with
      | dead => rw [hs] at hroot; cases hroot
      | empty => rw [hs] at hroot; cases hroot
      | own => rw [hs] at hroot; cases hroot; exact hne rfl
      | borrow q => rw [hs] at hroot; cases hroot; exact hfree h' hs
    rcases hg with hg | hg
    · refine ⟨_, ptr, ?_, h.change (g := g) (o := some ⟨some (ptr k), false⟩) (by rw [hg]; simp) (by simp) (by simp) (by simp)
        (fun q hq => by cases hq; exact ⟨hk, rfl⟩)⟩
      simp only [PWorld.step, Option.bind_eq_bind]
      rw [h.empty g hg, Option.bind_some, hobj, Option.bind_some, Option.bind_some, Option.bind_some]
    · refine ⟨_, ptr, ?_, h.release (g := g) hg hfree (o := some ⟨some (ptr k), false⟩) (by simp) (by simp) (by simp)
        (fun q hq => by cases hq; exact ⟨hkg, hk, rfl⟩)⟩
      obtain ⟨c1, _, c3, _⟩ := h.own g hg
      simp only [PWorld.step, Option.bind_eq_bind]
      rw [c1, Option.bind_some, hobj, Option.bind_some]
      show ((w.heap.delete (ptr g)).bind _) = _
      rw [PHeap.delete_some c3, Option.bind_some, Option.bind_some]
  | @read g k hroot =>
    obtain ⟨hk, b, hobj⟩ := h.root hroot
    refine ⟨w, ptr, ?_, h⟩
    simp only [PWorld.step, Option.bind_eq_bind]
    rw [hobj, Option.bind_some, Option.bind_some, (h.own k hk).2.2.1, Option.bind_some]
  | @write g k f hroot =>
    obtain ⟨hk, b, hobj⟩ := h.root hroot
    obtain ⟨_, hlt, hc, _⟩ := h.own k hk
    refine ⟨{ w with heap := { w.heap with cell := Function.update w.heap.cell (ptr k) (some (f (s.val k))) } }, ptr, ?_, ?_⟩
    · simp only [PWorld.step, Option.bind_eq_bind]
      rw [hobj, Option.bind_some, Option.bind_some, hc, Option.bind_some]
    · refine ⟨h.dead, h.empty, ?_, h.borrow, h.inj, ?_, ?_⟩
      · intro q hq
        obtain ⟨b1, b2, b3, b4⟩ := h.own q hq
        refine ⟨b1, b2, ?_, b4⟩
        show Function.update w.heap.cell (ptr k) (some (f (s.val k))) (ptr q) = some (Function.update s.val k (f (s.val k)) q)
        by_cases hqk : q = k
        · rw [hqk, Function.update_self, Function.update_self]
        · rw [Function.update_of_ne hqk, Function.update_of_ne (fun e => hqk (h.inj q k hq hk e))]
          exact b3
      · intro p hp hn
        show Function.update w.heap.cell (ptr k) (some (f (s.val k))) p = none ∧ w.heap.frees p = 1
        rw [Function.update_of_ne (fun e => hn k hk e.symm)]
        exact h.gone p hp hn
      · intro p hp
        have hp : w.heap.next ≤ p := hp
        show Function.update w.heap.cell (ptr k) (some (f (s.val k))) p = none ∧ w.heap.frees p = 0
        rw [Function.update_of_ne (by omega)]
        exact h.fresh p hp
  | @destroy g hd hfree =>
    cases hs : s.st g with
    | dead => exact absurd hs hd
    | empty =>
      refine ⟨_, ptr, ?_, h.change (g := g) (o := none) (by rw [hs]; simp) (by simp) (by simp) (by simp) (by simp)⟩
      simp only [PWorld.step, Option.bind_eq_bind]
      rw [h.empty g hs, Option.bind_some, Option.bind_some]
    | borrow k =>
      refine ⟨_, ptr, ?_, h.change (g := g) (o := none) (by rw [hs]; simp) (by simp) (by simp) (by simp) (by simp)⟩
      simp only [PWorld.step, Option.bind_eq_bind]
      rw [(h.borrow g k hs).1, Option.bind_some, Option.bind_some]
    | own =>
      refine ⟨_, ptr, ?_, h.release (g := g) hs hfree (o := none) (by simp) (by simp) (by simp) (by simp)⟩
      obtain ⟨c1, _, c3, _⟩ := h.own g hs
      simp only [PWorld.step, Option.bind_eq_bind]
      rw [c1, Option.bind_some]
      show ((w.heap.delete (ptr g)).bind _) = _
      rw [PHeap.delete_some c3, Option.bind_some]

theorem ShInv.run {s s' : ShState X} {w : PWorld X} {ptr : Nat → Nat} {ops : List (ShOp X)} {outs : List X}
    (h : ShInv s w ptr) (hs : ShRun s ops outs s') : ∃ w' ptr', w.run ops = some (w', outs) ∧ ShInv s' w' ptr' := by
  induction hs generalizing w ptr with
  | nil => exact ⟨w, ptr, rfl, h⟩
  | cons h1 _ ih =>
    obtain ⟨w1, p1, a1, a2⟩ := h.step h1
    obtain ⟨w2, p2, b1, b2⟩ := ih a2
    refine ⟨w2, p2, ?_, b2⟩
    simp only [PWorld.run, Option.bind_eq_bind]
    rw [a1, Option.bind_some, b1, Option.bind_some]

theorem ShInv.start (v : Nat → X) : ShInv ⟨fun _ => .dead, v⟩ PWorld.start (fun _ => 0) :=
  ⟨fun _ _ => rfl, fun _ h => (by cases h), fun _ h => (by cases h), fun _ _ h => (by cases h),
   fun _ _ h => (by cases h), fun _ h => absurd h (Nat.not_lt_zero _), fun _ _ => ⟨rfl, rfl⟩⟩

end GraphMat
