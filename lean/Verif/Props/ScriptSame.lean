import Verif.Spec.ScriptSame
import Verif.Props.Script
import Verif.Props.AskSame

/-!
# User programs return the same on every number of ranks and threads (C96)
-/
namespace GraphMat

variable {S T U V E A : Type}

theorem Steps.take {gp : S → GProg T U V E} {every : Int → S → S} {msg : S → V → T} {proc : S → T → E → V → U}
    {act : Bool} {n : Nat} {es : List (Edge E)} {P P' : Nat → V} {A A' : Nat → Bool} {s s' : S} {k : Nat} {cs : List Bool}
    (h : Steps gp every msg proc act n es P A s k P' A' s' cs) (j : Nat) (hj : j ≤ k) :
    ∃ P1 A1 s1, Steps gp every msg proc act n es P A s j P1 A1 s1 (cs.take j) := by
  induction h with
  | zero =>
    obtain rfl : j = 0 := by omega
    exact ⟨_, _, _, Steps.zero⟩
  | succ h1 h2 ih =>
    rename_i k _ _ _ _ _ _ _
    by_cases e : j ≤ k
    · obtain ⟨P1, A1, s1, h⟩ := ih e
      refine ⟨P1, A1, s1, ?_⟩
      rw [List.take_append_of_le_length (by rw [h1.length]; exact e)]
      exact h
    · obtain rfl : j = k + 1 := by omega
      have h3 := h1.succ h2
      rw [← List.take_of_length_le (i := k + 1) (by simp [h1.length] : (_ ++ [_]).length ≤ k + 1)] at h3
      exact ⟨_, _, _, h3⟩

/-- The same properties and active vertices, and the same edges in any order. -/
structure GSpec.Same (n : Nat) (s s' : GSpec V E) : Prop where
  prop : ∀ v, 1 ≤ v → v ≤ n → s.prop v = s'.prop v
  active : ∀ v, 1 ≤ v → v ≤ n → s.active v = s'.active v
  edges : s.edges.Perm s'.edges
  valid : ∀ e ∈ s.edges, e.Valid n

theorem GProg.Pure.unique {gp : GProg T U V E} {msg msg' : V → T} {proc proc' : T → E → V → U} (h : gp.Pure msg proc) (h' : gp.Pure msg' proc') :
    msg = msg' ∧ proc = proc' := by
  refine ⟨funext fun p => ?_, funext fun t => funext fun e => funext fun v => ?_⟩
  · rw [← h.send p (msg p), h'.send]
  · rw [← h.process t e v (proc t e v), h'.process]

section

variable {n : Nat} {s s' : GSpec V E} {pr : Program S T U V E} {s0 : S}

theorem GSpec.Runs.unique (hs : s.Same n s') (hf : ∀ s, OrderFree (pr.gp s).reduce) {k : Nat} {t t' : GSpec V E} {s1 s1' : S} {c c' : List Bool}
    (h : s.Runs n pr s0 k t s1 c) (h' : s'.Runs n pr s0 k t' s1' c') : t.Same n t' ∧ s1 = s1' ∧ c = c' := by
  obtain ⟨msg, proc, p, e, st⟩ := h
  obtain ⟨msg', proc', p', e', st'⟩ := h'
  obtain rfl : msg = msg' := funext fun s => ((p s).unique (p' s)).1
  obtain rfl : proc = proc' := funext fun s => ((p s).unique (p' s)).2
  obtain ⟨a1, a2, a3, a4⟩ := Steps.unique (fun s => (hf s).1) (fun s => (hf s).2) hs.valid hs.edges hs.prop
    (fun v v1 v2 => by simp only [hs.active v v1 v2]) st st'
  exact ⟨⟨a1, a2, by rw [e, e']; exact hs.edges, by rw [e]; exact hs.valid⟩, a3, a4⟩

theorem GSpec.Runs.take {k : Nat} {t : GSpec V E} {s1 : S} {c : List Bool} (h : s.Runs n pr s0 k t s1 c) {j : Nat} (hj : j ≤ k) :
    ∃ t' s1', s.Runs n pr s0 j t' s1' (c.take j) := by
  obtain ⟨msg, proc, p, e, st⟩ := h
  obtain ⟨P1, A1, s1, st⟩ := st.take j hj
  exact ⟨⟨P1, A1, s.edges⟩, s1, msg, proc, p, rfl, st⟩

theorem GSpec.Runs.length {k : Nat} {t : GSpec V E} {s1 : S} {c : List Bool} (h : s.Runs n pr s0 k t s1 c) : c.length = k := by
  obtain ⟨msg, proc, p, e, st⟩ := h
  exact st.length

/-- A run that ended after `k` supersteps and one all of whose supersteps (at least `k`) changed something. -/
theorem GSpec.Runs.not_longer (hs : s.Same n s') (hf : ∀ s, OrderFree (pr.gp s).reduce) {k k' : Nat} {t t' : GSpec V E} {s1 s1' : S} {cs c' : List Bool}
    (h : s.Runs n pr s0 k t s1 (cs ++ [true])) (h' : s'.Runs n pr s0 k' t' s1' c') (hc : ∀ b ∈ c'.take k, b = false) : ¬ k ≤ k' := by
  intro hk
  obtain ⟨_, _, h2⟩ := h'.take hk
  obtain ⟨_, _, e⟩ := h.unique hs hf h2
  have := hc true (by rw [← e]; simp)
  cases this

theorem GSpec.Same.symm (hs : s.Same n s') : s'.Same n s :=
  ⟨fun v a b => (hs.prop v a b).symm, fun v a b => (hs.active v a b).symm, hs.edges.symm, fun e he => hs.valid e (hs.edges.mem_iff.mpr he)⟩

end

theorem filterMap_owner {x : V} {o : Nat} : ∀ m, (List.range m).filterMap (fun r => if r = o then some x else none) = if o < m then [x] else [] := by
  intro m
  induction m with
  | zero => rfl
  | succ m ih =>
    rw [List.range_succ, List.filterMap_append, ih]
    by_cases e : m = o
    · subst e
      simp
    · have : o < m + 1 ↔ o < m := by omega
      simp [e, this]

section

variable {n nrank nrank' fuel : Nat}

theorem GOp.step_same (hr : 0 < nrank) (hr' : 0 < nrank') (op : GOp S T U V E A) (hv : op.Valid n fuel) (hop : op.OrderFree) {s s' t t' : GSpec V E} (hs : s.Same n s')
    {out out' : List (GOut S V E A)} (h : op.Step n nrank fuel s t out) (h' : op.Step n nrank' fuel s' t' out') :
    t.Same n t' ∧ List.Forall₂ GOut.Same out out' := by
  cases op with
  | vertex o =>
    obtain ⟨rfl, rfl⟩ := h
    obtain ⟨rfl, rfl⟩ := h'
    refine ⟨⟨fun v a b => ?_, fun v a b => ?_, hs.edges, hs.valid⟩, .nil⟩
    · have := hs.prop v a b
      cases o <;> simp only [VSpec.step, this]
    · have := hs.active v a b
      cases o <;> simp only [VSpec.step, this]
  | init =>
    obtain ⟨rfl, rfl⟩ := h
    obtain ⟨rfl, rfl⟩ := h'
    exact ⟨hs, .nil⟩
  | edges f =>
    obtain ⟨rfl, rfl⟩ := h
    obtain ⟨rfl, rfl⟩ := h'
    refine ⟨⟨hs.prop, hs.active, ?_, ?_⟩, .nil⟩
    · have : ∀ e ∈ s.edges, (⟨e.src, e.dst, f e.val (s.prop e.src.toNat) (s.prop e.dst.toNat)⟩ : Edge E) =
          ⟨e.src, e.dst, f e.val (s'.prop e.src.toNat) (s'.prop e.dst.toNat)⟩ := by
        intro e he
        obtain ⟨h1, h2, h3, h4⟩ := hs.valid e he
        rw [hs.prop _ (by omega) (by omega), hs.prop _ (by omega) (by omega)]
      simp only
      rw [List.map_congr_left this]
      exact hs.edges.map _
    · intro e he
      simp only [List.mem_map] at he
      obtain ⟨e', he', rfl⟩ := he
      exact hs.valid e' he'
  | reduce m w op e =>
    obtain ⟨rfl, x, rfl, h⟩ := h
    obtain ⟨rfl, x', rfl, h'⟩ := h'
    refine ⟨⟨fun v a b => by simp only [hs.prop v a b], hs.active, hs.edges, hs.valid⟩, .cons ?_ .nil⟩
    have e1 : (List.range n).map (fun j => m (s.prop (j + 1))) = (List.range n).map (fun j => m (s'.prop (j + 1))) := by
      apply List.map_congr_left
      intro j hj
      rw [List.mem_range] at hj
      rw [hs.prop _ (by omega) (by omega)]
    rw [e1] at h
    exact Option.some.inj (Reduces.same hop.1 (.refl _) (Reduces.of_unique hop.1.1 hop.1.2 hop.2 hr h nrank' hr') h')
  | get v =>
    obtain ⟨rfl, o, ho, rfl⟩ := h
    obtain ⟨rfl, o', ho', rfl⟩ := h'
    refine ⟨hs, .cons ?_ .nil⟩
    obtain ⟨v1, v2⟩ := hv
    simp only [GOut.Same, List.filterMap_map, Function.comp_def, id]
    rw [filterMap_owner, filterMap_owner, if_pos ho, if_pos ho', hs.prop v v1 v2]
  | list =>
    obtain ⟨rfl, ls, rfl, _, h⟩ := h
    obtain ⟨rfl, ls', rfl, _, h'⟩ := h'
    exact ⟨hs, .cons (h.trans (hs.edges.trans h'.symm)) .nil⟩
  | run pr s0 iterations reuse =>
    obtain ⟨k, s1, conv, h, he, rfl⟩ := h
    obtain ⟨k', s1', conv', h', he', rfl⟩ := h'
    obtain rfl : k = k' := by
      obtain ⟨_, he⟩ := he
      obtain ⟨_, he'⟩ := he'
      split at he
      · next hi =>
        rw [if_pos hi] at he'
        omega
      · next hi =>
        rw [if_neg hi] at he'
        obtain ⟨cs, rfl, hc⟩ := he
        obtain ⟨cs', rfl, hc'⟩ := he'
        have l := h.length
        have l' := h'.length
        simp only [List.length_append, List.length_singleton] at l l'
        by_contra hne
        rcases Nat.lt_or_gt_of_ne hne with hlt | hlt
        · refine h.not_longer hs hop h' ?_ (by omega)
          rw [List.take_append_of_le_length (by omega)]
          exact fun b hb => hc' b (List.mem_of_mem_take hb)
        · refine h'.not_longer hs.symm hop h ?_ (by omega)
          rw [List.take_append_of_le_length (by omega)]
          exact fun b hb => hc b (List.mem_of_mem_take hb)
    obtain ⟨a, b, _⟩ := h.unique hs hop h'
    exact ⟨a, .cons ⟨rfl, b⟩ .nil⟩

/-- What `Endless` says about the first call. -/
theorem Endless.cases {op : GOp S T U V E A} {ops : List (GOp S T U V E A)} {s : GSpec V E} {outs : List (GOut S V E A)}
    (h : Endless n nrank fuel (op :: ops) s outs) :
    (outs = [] ∧ ∃ pr s0 it re s2 s3 conv, op = .run pr s0 it re ∧ it ≤ 0 ∧ s.Runs n pr s0 fuel s2 s3 conv ∧ ∀ b ∈ conv, b = false) ∨
    ∃ s1 out outs', op.Step n nrank fuel s s1 out ∧ Endless n nrank fuel ops s1 outs' ∧ outs = out ++ outs' := by
  obtain ⟨pre, pr, s0, it, re, post, s1, s2, s3, conv, h1, h2, h3, h4, h5⟩ := h
  cases h2 with
  | nil =>
    rw [List.nil_append] at h1
    injection h1 with e1 e2
    exact .inl ⟨rfl, pr, s0, it, re, s2, s3, conv, e1, h3, h4, h5⟩
  | cons a t =>
    rw [List.cons_append] at h1
    injection h1 with e1 e2
    subst e1
    exact .inr ⟨_, _, _, a, ⟨_, pr, s0, it, re, post, s1, s2, s3, conv, e2, t, h3, h4, h5⟩, rfl⟩

/-- A run that ends is not endless. -/
theorem not_endless {pr : Program S T U V E} {s0 : S} {it : Int} {re : Bool} (hop : (GOp.run (A := A) pr s0 it re).OrderFree) {s s' t : GSpec V E}
    (hs : s.Same n s') {out : List (GOut S V E A)} (h : (GOp.run pr s0 it re).Step n nrank fuel s t out) {s2 : GSpec V E} {s3 : S} {conv : List Bool}
    (hi : it ≤ 0) (h' : s'.Runs n pr s0 fuel s2 s3 conv) (hc : ∀ b ∈ conv, b = false) : False := by
  obtain ⟨k, s1, c, h, ⟨hk, he⟩, _⟩ := h
  rw [if_neg (by omega)] at he
  obtain ⟨cs, rfl, _⟩ := he
  exact h.not_longer hs hop h' (fun b hb => hc b (List.mem_of_mem_take hb)) hk

theorem gsteps_same (hr : 0 < nrank) (hr' : 0 < nrank') : ∀ (ops : List (GOp S T U V E A)) (_ : ∀ op ∈ ops, op.Valid n fuel) (_ : ∀ op ∈ ops, op.OrderFree) {s s' : GSpec V E}
    (_ : s.Same n s'),
    (∀ t t' outs outs', GSteps n nrank fuel ops s t outs → GSteps n nrank' fuel ops s' t' outs' → List.Forall₂ GOut.Same outs outs') ∧
    (∀ t outs outs', GSteps n nrank fuel ops s t outs → Endless n nrank' fuel ops s' outs' → False) ∧
    (∀ t' outs outs', Endless n nrank fuel ops s outs → GSteps n nrank' fuel ops s' t' outs' → False) ∧
    (∀ outs outs', Endless n nrank fuel ops s outs → Endless n nrank' fuel ops s' outs' → List.Forall₂ GOut.Same outs outs') := by
  intro ops
  induction ops with
  | nil =>
    intro _ _ s s' hs
    have no : ∀ {nrank : Nat} {s : GSpec V E} {outs : List (GOut S V E A)}, ¬ Endless n nrank fuel ([] : List (GOp S T U V E A)) s outs := by
      rintro nrank s outs ⟨pre, pr, s0, it, re, post, _, _, _, _, h, _⟩
      simp at h
    refine ⟨fun t t' o o' h h' => ?_, fun _ _ _ _ h => no h, fun _ _ _ h => (no h).elim, fun _ _ h => (no h).elim⟩
    cases h
    cases h'
    exact .nil
  | cons op ops ih =>
    intro hval hops s s' hs
    have hv := hval op List.mem_cons_self
    have hop := hops op List.mem_cons_self
    have ih := fun {s s' : GSpec V E} (h : s.Same n s') => ih (fun o ho => hval o (List.mem_cons_of_mem _ ho)) (fun o ho => hops o (List.mem_cons_of_mem _ ho)) h
    refine ⟨fun t t' o o' h h' => ?_, fun t o o' h h' => ?_, fun t' o o' h h' => ?_, fun o o' h h' => ?_⟩
    · cases h with
      | cons a b =>
      cases h' with
      | cons a' b' =>
      obtain ⟨e1, e2⟩ := GOp.step_same hr hr' op hv hop hs a a'
      exact List.rel_append e2 ((ih e1).1 _ _ _ _ b b')
    · cases h with
      | cons a b =>
      rcases h'.cases with ⟨_, pr, s0, it, re, s2, s3, conv, rfl, k1, k2, k3⟩ | ⟨s1, out, outs', a', b', _⟩
      · exact not_endless hop hs a k1 k2 k3
      · exact (ih (GOp.step_same hr hr' op hv hop hs a a').1).2.1 _ _ _ b b'
    · cases h' with
      | cons a' b' =>
      rcases h.cases with ⟨_, pr, s0, it, re, s2, s3, conv, rfl, k1, k2, k3⟩ | ⟨s1, out, outs', a, b, _⟩
      · exact not_endless hop hs.symm a' k1 k2 k3
      · exact (ih (GOp.step_same hr hr' op hv hop hs a a').1).2.2.1 _ _ _ b b'
    · rcases h.cases with ⟨rfl, pr, s0, it, re, s2, s3, conv, rfl, k1, k2, k3⟩ | ⟨s1, out, outs1, a, b, rfl⟩
      · rcases h'.cases with ⟨rfl, _⟩ | ⟨s1, out, outs', a', b', _⟩
        · exact .nil
        · exact (not_endless hop hs.symm a' k1 k2 k3).elim
      · rcases h'.cases with ⟨_, pr, s0, it, re, s2, s3, conv, rfl, k1, k2, k3⟩ | ⟨s1', out', outs1', a', b', rfl⟩
        · exact (not_endless hop hs a k1 k2 k3).elim
        · obtain ⟨e1, e2⟩ := GOp.step_same hr hr' op hv hop hs a a'
          exact List.rel_append e2 ((ih e1).2.2.2 _ _ b b')

end

variable {n nrank nrank' threads threads' : Nat}

/-- C96.  The same user program, on other numbers of ranks and threads, other divisions and orders of the edges, other sorting functions and memory
contents: if the reductions of its vertex programs are associative and commutative, and those of `applyReduceAllVertices` too and begin with an
identity, then both programs return from all calls with the same results, or both stay in the same call after the same results. -/
theorem graph_program_same_everywhere (c : Cfg n nrank threads) (c' : Cfg n nrank' threads') (hfit : n + threads ≤ IMAX) (hfit' : n + threads' ≤ IMAX)
    (le le' : LoadEnv V E) (hsA : le.sA.OK) (hsT : le.sAT.OK) (hsA' : le'.sA.OK) (hsT' : le'.sAT.OK) {d : V} (hd : le.d = fun _ => d)
    (hd' : le'.d = fun _ => d) {blobs blobs' : List (List (Edge E))} (hb : blobs.length = nrank) (hb' : blobs'.length = nrank')
    (hin : ∀ es ∈ blobs, ∀ e ∈ es, e.Valid n) (hsame : blobs.flatten.Perm blobs'.flatten)
    (gv gv' : Nat → Nat → Nat → Fresh V) (ga ga' : Nat → Nat → Nat → Fresh Bool) {first : List (VOp V)} (hfirst : ∀ op ∈ first, op.Valid n)
    (hfix : ∃ op ∈ first, op.FixesActivity) (ce ce' : Nat → CallEnv T U V A) {fuel : Nat} (hfuel : fuel ≤ IMAX) (ops : List (GOp S T U V E A))
    (hops : ∀ op ∈ ops, op.Valid n fuel) (hfree : ∀ op ∈ ops, op.OrderFree) :
    ∃ out G G1 out' G' G1', Graph.readEdgelist le threads nrank n n blobs = some (out, G) ∧
      Graph.readEdgelist le' threads' nrank' n n blobs' = some (out', G') ∧
      G.onVertices (fun vg => vg.runOps gv ga 0 first) = some G1 ∧ G'.onVertices (fun vg => vg.runOps gv' ga' 0 first) = some G1' ∧
      ((∃ st st' outs outs', runScript ce nrank fuel 0 ops (G1, none) = some (.done (st, outs)) ∧
        runScript ce' nrank' fuel 0 ops (G1', none) = some (.done (st', outs')) ∧ List.Forall₂ GOut.Same outs outs') ∨
      (∃ st st' outs outs', runScript ce nrank fuel 0 ops (G1, none) = some (.more (st, outs)) ∧
        runScript ce' nrank' fuel 0 ops (G1', none) = some (.more (st', outs')) ∧ List.Forall₂ GOut.Same outs outs')) := by
  have hval : ∀ e ∈ blobs.flatten, e.Valid n := by
    intro e he
    obtain ⟨es, h1, h2⟩ := List.mem_flatten.mp he
    exact hin es h1 e h2
  obtain ⟨out, G, G1, a1, a2, a3⟩ := graph_program_correct c hfit le hsA hsT hd hb hin gv ga hfirst hfix (fun _ => false) ce hfuel ops hops
  obtain ⟨out', G', G1', b1, b2, b3⟩ := graph_program_correct c' hfit' le' hsA' hsT' hd' hb'
    (fun es h1 e h2 => hval e (hsame.mem_iff.mpr (List.mem_flatten.mpr ⟨es, h1, h2⟩))) gv' ga' hfirst hfix (fun _ => false) ce' hfuel ops hops
  refine ⟨out, G, G1, out', G', G1', a1, b1, a2, b2, ?_⟩
  obtain ⟨k1, k2, k3, k4⟩ := gsteps_same (fuel := fuel) c.rpos c'.rpos ops hops hfree (s := ⟨_, _, blobs.flatten⟩) (s' := ⟨_, _, blobs'.flatten⟩)
    ⟨fun _ _ _ => rfl, fun _ _ _ => rfl, hsame, hval⟩
  rcases a3 with ⟨st, s, outs, a3, a4⟩ | ⟨st, outs, a3, a4⟩ <;> rcases b3 with ⟨st', s', outs', b3, b4⟩ | ⟨st', outs', b3, b4⟩
  · exact .inl ⟨st, st', outs, outs', a3, b3, k1 _ _ _ _ a4 b4⟩
  · exact (k2 _ _ _ a4 b4).elim
  · exact (k3 _ _ _ a4 b4).elim
  · exact .inr ⟨st, st', outs, outs', a3, b3, k4 _ _ a4 b4⟩

/-- The hypotheses, with 2 ranks and one thread and with 5 ranks and 3 threads, the edges divided in another order. -/
example := graph_program_same_everywhere (n := 40) (nrank := 2) (threads := 1) (nrank' := 5) (threads' := 3)
  ⟨by decide, by decide, by decide, by decide⟩ ⟨by decide, by decide, by decide, by decide⟩ (by decide) (by decide)
  (LoadEnv.sample (V := Nat) (E := Nat) 0 0) (LoadEnv.sample (V := Nat) (E := Nat) 0 1)
  Sorts.ins_ok Sorts.ins_ok Sorts.ins_ok Sorts.ins_ok (d := 0) rfl rfl
  (blobs := [[⟨2, 1, 5⟩, ⟨40, 2, 6⟩], [⟨1, 39, 9⟩]]) (blobs' := [[⟨1, 39, 9⟩], [], [⟨2, 1, 5⟩], [⟨40, 2, 6⟩], []]) rfl rfl (by
    intro es hes e he
    simp at hes
    rcases hes with rfl | rfl <;> simp at he
    · rcases he with rfl | rfl <;> simp [Edge.Valid]
    · subst he; simp [Edge.Valid]) (by decide)
  (fun _ _ _ => .sample 0) (fun _ _ _ => .sample 8) (fun _ _ _ => .sample true) (fun _ _ _ => .sample false)
  (first := [.setAllInactive]) (by simp [VOp.Valid]) ⟨.setAllInactive, by simp, trivial⟩
  (fun _ => .sample 1) (fun _ => .sample 2) (fuel := 10) (by decide) (scriptSample 40) (scriptSample_valid 40 (by decide))
  (by
    intro op h
    simp only [scriptSample, List.mem_cons, List.not_mem_nil, or_false] at h
    rcases h with rfl | rfl | rfl | rfl | rfl | rfl | rfl | rfl | rfl | rfl
    all_goals first
      | trivial
      | exact fun _ => ⟨Nat.min_assoc, Nat.min_comm⟩
      | exact ⟨⟨Nat.add_assoc, Nat.add_comm⟩, Nat.zero_add⟩)

/-- The results of the sample program on one rank, and on three ranks with two threads and the edges in another order: only the ranks that have the
property and the edges differ. -/
example : sampleScript 1 1 [[⟨2, 1, 5⟩, ⟨20, 2, 6⟩, ⟨1, 19, 9⟩]] 4 (scriptSample 20) 10 = some (true, [.ran 4 (), .ran 1 (), .val 1505,
      .prop [some 18], .edges [[⟨2, 1, 49⟩, ⟨20, 2, 33⟩, ⟨1, 19, 72⟩]]]) ∧
    sampleScript 3 2 [[⟨1, 19, 9⟩], [⟨2, 1, 5⟩], [⟨20, 2, 6⟩]] 7 (scriptSample 20) 10 = some (true, [.ran 4 (), .ran 1 (), .val 1505,
      .prop [some 18, none, none], .edges [[⟨2, 1, 49⟩, ⟨20, 2, 33⟩, ⟨1, 19, 72⟩], [], []]]) := by
  decide +kernel

/-- An initial value that is no identity takes part once for every rank. -/
theorem initial_value_counts_ranks :
    sampleScript 1 1 [[⟨2, 1, 5⟩]] 4 [.reduce id id (· + ·) 1] 10 = some (true, [.val 1]) ∧
    sampleScript 2 1 [[⟨2, 1, 5⟩], []] 4 [.reduce id id (· + ·) 1] 10 = some (true, [.val 2]) := by
  decide +kernel

end GraphMat
