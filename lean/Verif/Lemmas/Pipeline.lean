import Verif.Spec.Pipeline
import Verif.Props.Converter
import Verif.Props.ReadMTX

/-!
# Lemmas for C71: what the converter does to the edges, in terms of walks
-/
namespace GraphMat

variable {E F : Type}

/-! ### Edges between two vertices -/

/-- There is an edge from `u` to `v`. -/
def HasArc (l : List (Edge E)) (u v : Int) : Prop := ∃ e ∈ l, e.src = u ∧ e.dst = v

theorem hasEdge_iff {l : List (Edge E)} {u v : Nat} : HasEdge l u v ↔ HasArc l u v := Iff.rfl

theorem HasArc.perm {l l' : List (Edge E)} (h : l.Perm l') {u v : Int} : HasArc l u v ↔ HasArc l' u v :=
  ⟨fun ⟨e, a, b⟩ => ⟨e, h.mem_iff.1 a, b⟩, fun ⟨e, a, b⟩ => ⟨e, h.mem_iff.2 a, b⟩⟩

theorem HasArc.mapVal {l : List (Edge E)} {f : E → F} {u v : Int} : HasArc (l.map (Edge.mapVal f)) u v ↔ HasArc l u v := by
  constructor
  · rintro ⟨e, h1, h2⟩
    obtain ⟨x, h3, rfl⟩ := List.mem_map.1 h1
    exact ⟨x, h3, h2⟩
  · rintro ⟨e, h1, h2⟩
    exact ⟨_, List.mem_map.2 ⟨e, h1, rfl⟩, h2⟩

theorem HasArc.weighted {o : Options} {one : E} {cast : Rat → E} {l a : List (Edge E)} (h : Weighted o one cast l a)
    {u v : Int} : HasArc a u v ↔ HasArc l u v := by
  unfold Weighted at h
  split at h
  · subst h
    constructor
    · rintro ⟨e, h1, h2⟩
      obtain ⟨x, h3, rfl⟩ := List.mem_map.1 h1
      exact ⟨x, h3, h2⟩
    · rintro ⟨e, h1, h2⟩
      exact ⟨_, List.mem_map.2 ⟨e, h1, rfl⟩, h2⟩
  · split at h
    · induction h with
      | nil => rfl
      | cons hx _ ih =>
        obtain ⟨h1, h2, _⟩ := hx
        constructor
        · rintro ⟨e, h3, h4⟩
          rcases List.mem_cons.1 h3 with rfl | h3
          · exact ⟨_, List.mem_cons_self, h1 ▸ h4.1, h2 ▸ h4.2⟩
          · obtain ⟨e', h5, h6⟩ := ih.1 ⟨e, h3, h4⟩
            exact ⟨e', List.mem_cons_of_mem _ h5, h6⟩
        · rintro ⟨e, h3, h4⟩
          rcases List.mem_cons.1 h3 with rfl | h3
          · exact ⟨_, List.mem_cons_self, h1.trans h4.1, h2.trans h4.2⟩
          · obtain ⟨e', h5, h6⟩ := ih.2 ⟨e, h3, h4⟩
            exact ⟨e', List.mem_cons_of_mem _ h5, h6⟩
    · rw [h]

theorem HasArc.noLoops {l : List (Edge E)} {u v : Int} :
    HasArc (l.filter (fun x => decide (x.src ≠ x.dst))) u v ↔ u ≠ v ∧ HasArc l u v := by
  constructor
  · rintro ⟨e, h1, rfl, rfl⟩
    obtain ⟨h2, h3⟩ := List.mem_filter.1 h1
    exact ⟨of_decide_eq_true h3, e, h2, rfl, rfl⟩
  · rintro ⟨h1, e, h2, rfl, rfl⟩
    exact ⟨e, List.mem_filter.2 ⟨h2, decide_eq_true h1⟩, rfl, rfl⟩

theorem HasArc.append {l k : List (Edge E)} {u v : Int} : HasArc (l ++ k) u v ↔ HasArc l u v ∨ HasArc k u v := by
  simp only [HasArc, List.mem_append]
  constructor
  · rintro ⟨e, h | h, h2⟩
    · exact .inl ⟨e, h, h2⟩
    · exact .inr ⟨e, h, h2⟩
  · rintro (⟨e, h, h2⟩ | ⟨e, h, h2⟩)
    · exact ⟨e, .inl h, h2⟩
    · exact ⟨e, .inr h, h2⟩

theorem HasArc.reversed {l : List (Edge E)} {u v : Int} :
    HasArc (l.map (fun x => (⟨x.dst, x.src, x.val⟩ : Edge E))) u v ↔ HasArc l v u := by
  constructor
  · rintro ⟨e, h1, h2, h3⟩
    obtain ⟨x, h4, rfl⟩ := List.mem_map.1 h1
    exact ⟨x, h4, h3, h2⟩
  · rintro ⟨e, h1, h2, h3⟩
    exact ⟨_, List.mem_map.2 ⟨e, h1, rfl⟩, h3, h2⟩

theorem HasArc.upper {l : List (Edge E)} {u v : Int} :
    HasArc (l.map (fun x => (⟨min x.src x.dst, max x.src x.dst, x.val⟩ : Edge E))) u v ↔
      u ≤ v ∧ (HasArc l u v ∨ HasArc l v u) := by
  constructor
  · rintro ⟨e, h1, h2, h3⟩
    obtain ⟨x, h4, rfl⟩ := List.mem_map.1 h1
    simp only at h2 h3
    refine ⟨by omega, ?_⟩
    rcases Int.le_total x.src x.dst with h | h
    · exact .inl ⟨x, h4, by omega, by omega⟩
    · exact .inr ⟨x, h4, by omega, by omega⟩
  · rintro ⟨h, ⟨e, h1, h2, h3⟩ | ⟨e, h1, h2, h3⟩⟩
    · exact ⟨_, List.mem_map.2 ⟨e, h1, rfl⟩, by simp only; omega, by simp only; omega⟩
    · exact ⟨_, List.mem_map.2 ⟨e, h1, rfl⟩, by simp only; omega, by simp only; omega⟩

theorem HasArc.oneOfEach {d e : List (Edge E)} (h : OneOfEach d e) {u v : Int} : HasArc e u v ↔ HasArc d u v := by
  constructor
  · rintro ⟨x, h1, h2⟩
    exact ⟨x, h.2.1 x h1, h2⟩
  · rintro ⟨x, h1, rfl, rfl⟩
    obtain ⟨y, h2, h3⟩ := h.2.2 x h1
    exact ⟨y, h2, h3⟩

/-- What the options other than renumbering do to the edges. -/
def ArcsMeant (o : Options) (l e : List (Edge E)) : Prop :=
  ∀ u v, HasArc e u v ↔ (o.selfloops = 0 → u ≠ v) ∧
    if o.uppertriangular = 1 then u ≤ v ∧ (HasArc l u v ∨ HasArc l v u)
    else if o.bidirectional = 1 then HasArc l u v ∨ HasArc l v u
    else HasArc l u v

theorem Converted.before {o : Options} {n : Int} {one : E} {cast : Rat → E} {l out : List (Edge E)}
    (h : Converted o n one cast l out) : ∃ e, ArcsMeant o l e ∧ (o.duplicatededges = 0 → NoParallel e) ∧
      if o.randomizeID = 1 then ∃ π, PermutesIds n π ∧ out.Perm (e.map (fun x => ⟨π x.src, π x.dst, x.val⟩))
      else out.Perm e := by
  obtain ⟨a, b, c, d, e, h1, h2, h3, h4, h5, h6⟩ := h
  refine ⟨e, ?_, ?_, h6⟩
  · intro u v
    have k5 : HasArc e u v ↔ HasArc d u v := by
      split at h5
      · exact HasArc.oneOfEach h5
      · rw [h5]
    have kb : ∀ u v, HasArc b u v ↔ (o.selfloops = 0 → u ≠ v) ∧ HasArc l u v := by
      intro u v
      rw [h2]
      split
      · rename_i hs
        rw [HasArc.noLoops, HasArc.weighted h1]
        exact ⟨fun h => ⟨fun _ => h.1, h.2⟩, fun h => ⟨h.1 hs, h.2⟩⟩
      · rename_i hs
        rw [HasArc.weighted h1]
        exact ⟨fun h => ⟨fun h' => absurd h' hs, h⟩, fun h => h.2⟩
    have kc : ∀ u v, HasArc c u v ↔ (o.selfloops = 0 → u ≠ v) ∧
        if o.bidirectional = 1 then HasArc l u v ∨ HasArc l v u else HasArc l u v := by
      intro u v
      rw [h3]
      split
      · rw [HasArc.append, HasArc.reversed, kb, kb, @ne_comm _ v u]
        tauto
      · exact kb u v
    rw [k5, h4]
    split
    · rw [HasArc.upper, kc, kc, @ne_comm _ v u]
      split <;> tauto
    · exact kc u v
  · intro hd
    rw [if_pos hd] at h5
    exact h5.1

/-! ### Walks only depend on which vertices have edges between them -/

theorem Walk.of_arcs {es : List (Edge E)} {es' : List (Edge F)} (h : ∀ u v : Nat, u ≠ v → HasEdge es u v → HasEdge es' u v)
    {s v k : Nat} (w : Walk es s v k) : ∃ j, j ≤ k ∧ Walk es' s v j := by
  induction w with
  | refl => exact ⟨0, Nat.le_refl _, .refl⟩
  | @step u v k e _ h1 h2 h3 ih =>
    obtain ⟨j, h4, h5⟩ := ih
    by_cases hv : u = v
    · subst hv
      exact ⟨j, by omega, h5⟩
    · obtain ⟨e', a, b, c⟩ := h u v hv ⟨e, h1, h2, h3⟩
      exact ⟨j + 1, by omega, .step e' h5 a b c⟩

theorem IsHops.of_arcs {es : List (Edge E)} {es' : List (Edge F)}
    (h : ∀ u v : Nat, u ≠ v → (HasEdge es u v ↔ HasEdge es' u v)) {s v k : Nat} (hk : IsHops es s v k) :
    IsHops es' s v k := by
  obtain ⟨h1, h2⟩ := hk
  have hback : ∀ j, Walk es' s v j → k ≤ j := by
    intro j w
    obtain ⟨i, h5, h6⟩ := w.of_arcs (es' := es) (fun u v hv => (h u v hv).2)
    have := h2 i h6
    omega
  obtain ⟨j, h3, h4⟩ := h1.of_arcs (es' := es') (fun u v hv => (h u v hv).1)
  have := hback j h4
  have : j = k := by omega
  subst this
  exact ⟨h4, hback⟩

theorem Reachable.of_arcs {es : List (Edge E)} {es' : List (Edge F)}
    (h : ∀ u v : Nat, u ≠ v → HasEdge es u v → HasEdge es' u v) {s v : Nat} (hr : Reachable es s v) : Reachable es' s v := by
  obtain ⟨k, w⟩ := hr
  obtain ⟨j, _, w'⟩ := w.of_arcs h
  exact ⟨j, w'⟩

theorem BfsV.Correct.of_arcs {es : List (Edge E)} {es' : List (Edge F)}
    (h : ∀ u v : Nat, u ≠ v → (HasEdge es u v ↔ HasEdge es' u v)) {src v : Nat} {x : BfsV}
    (hx : x.Correct es src v) : x.Correct es' src v := by
  refine ⟨fun k hk => ?_, fun hk => hx.2 (fun h' => hk (h'.of_arcs fun u v hv => (h u v hv).1))⟩
  obtain ⟨a, b⟩ := hx.1 k (hk.of_arcs fun u v hv => (h u v hv).symm)
  refine ⟨a, fun i hi => ?_⟩
  obtain ⟨e, e1, e2, e3, e4⟩ := b i hi
  have e5 : IsHops es' src x.parent.toNat i := e4.of_arcs h
  have hne : x.parent.toNat ≠ v := by
    intro hv
    rw [hv] at e5
    have := e5.2 k hk.1
    have := hk.2 i e5.1
    omega
  obtain ⟨e', a1, a2, a3⟩ := (h _ _ hne).1 ⟨e, e1, e2, e3⟩
  exact ⟨e', a1, a2, a3, e5⟩

theorem WWalk.of_mem_ne {len : E → Nat} {es es' : List (Edge E)} (h : ∀ e ∈ es, e.src ≠ e.dst → e ∈ es') {s v k d : Nat}
    (w : WWalk len es s v k d) : ∃ j d', j ≤ k ∧ d' ≤ d ∧ WWalk len es' s v j d' := by
  induction w with
  | refl => exact ⟨0, 0, Nat.le_refl _, Nat.le_refl _, .refl⟩
  | @step u v k d e _ h1 h2 h3 ih =>
    obtain ⟨j, d', h4, h5, h6⟩ := ih
    by_cases hv : u = v
    · subst hv
      exact ⟨j, d', by omega, by omega, h6⟩
    · exact ⟨j + 1, d' + len e.val, by omega, by omega,
        .step e h6 (h e h1 (by rw [h2, h3]; exact_mod_cast hv)) h2 h3⟩

theorem WWalk.of_mem {len : E → Nat} {es es' : List (Edge E)} (h : ∀ e ∈ es, e ∈ es') {s v k d : Nat}
    (w : WWalk len es s v k d) : WWalk len es' s v k d := by
  induction w with
  | refl => exact .refl
  | step e _ h1 h2 h3 ih => exact .step e ih (h e h1) h2 h3

/-- Self loops do not matter for distances. -/
theorem IsDist.of_mem_ne {len : E → Nat} {es es' : List (Edge E)} (h1 : ∀ e ∈ es, e ∈ es')
    (h2 : ∀ e ∈ es', e.src ≠ e.dst → e ∈ es) {s v d : Nat} : IsDist len es s v d ↔ IsDist len es' s v d := by
  constructor
  · rintro ⟨⟨k, a⟩, b⟩
    refine ⟨⟨k, a.of_mem h1⟩, fun k' d' w => ?_⟩
    obtain ⟨j, d'', _, h4, h5⟩ := w.of_mem_ne h2
    exact Nat.le_trans (b j d'' h5) h4
  · rintro ⟨⟨k, a⟩, b⟩
    obtain ⟨j, d', _, h4, h5⟩ := a.of_mem_ne h2
    have := b j d' (h5.of_mem h1)
    have : d' = d := by omega
    subst this
    exact ⟨⟨j, h5⟩, fun k' d' w => b k' d' (w.of_mem h1)⟩

/-! ### The edges for the three programs -/

theorem Converted.arcs {o : Options} {n : Int} {one : E} {cast : Rat → E} {l out : List (Edge E)}
    (h : Converted o n one cast l out) (hu : o.uppertriangular ≠ 1) (hr : o.randomizeID ≠ 1) {u v : Nat} (hv : u ≠ v) :
    HasEdge out u v ↔ HasEdge (arcsOf (decide (o.bidirectional = 1)) l) u v := by
  obtain ⟨e, h1, _, h2⟩ := h.before
  rw [if_neg hr] at h2
  rw [hasEdge_iff, hasEdge_iff, HasArc.perm h2, h1, if_neg hu]
  have hv' : (u : Int) ≠ v := by exact_mod_cast hv
  by_cases hb : o.bidirectional = 1
  · rw [if_pos hb, arcsOf, if_pos (by simp [hb]), HasArc.append, HasArc.reversed]
    tauto
  · rw [if_neg hb, arcsOf, if_neg (by simp [hb])]
    tauto

theorem Converted.edges {o : Options} {n : Int} {one : E} {cast : Rat → E} {l out : List (Edge E)}
    (h : Converted o n one cast l out) (hw : o.outputedgeweights = 1) (hu : o.uppertriangular ≠ 1) (hr : o.randomizeID ≠ 1)
    (hd : o.duplicatededges ≠ 0 ∨ SameValues (arcsOf (decide (o.bidirectional = 1)) l)) :
    (∀ e ∈ out, e ∈ arcsOf (decide (o.bidirectional = 1)) l) ∧
      ∀ e ∈ arcsOf (decide (o.bidirectional = 1)) l, e.src ≠ e.dst → e ∈ out := by
  obtain ⟨a, b, c, d, e, h1, h2, h3, h4, h5, h6⟩ := h
  rw [if_neg hr] at h6
  rw [if_neg hu] at h4
  replace h4 := h4.symm
  subst h4
  have h1' : a = l := by
    unfold Weighted at h1
    rwa [if_neg (by omega), if_neg (by omega)] at h1
  subst h1'
  have hb1 : ∀ x ∈ b, x ∈ a := by
    intro x hx
    rw [h2] at hx
    split at hx
    · exact (List.mem_filter.1 hx).1
    · exact hx
  have hb2 : ∀ x ∈ a, x.src ≠ x.dst → x ∈ b := by
    intro x hx hne
    rw [h2]
    split
    · exact List.mem_filter.2 ⟨hx, decide_eq_true hne⟩
    · exact hx
  have hc : (∀ x ∈ c, x ∈ arcsOf (decide (o.bidirectional = 1)) a) ∧
      ∀ x ∈ arcsOf (decide (o.bidirectional = 1)) a, x.src ≠ x.dst → x ∈ c := by
    rw [h3]
    by_cases hbi : o.bidirectional = 1
    · rw [if_pos hbi, arcsOf, if_pos (by simp [hbi])]
      refine ⟨fun x hx => ?_, fun x hx hne => ?_⟩
      · rcases List.mem_append.1 hx with hx | hx
        · exact List.mem_append.2 (.inl (hb1 x hx))
        · obtain ⟨y, h7, rfl⟩ := List.mem_map.1 hx
          exact List.mem_append.2 (.inr (List.mem_map.2 ⟨y, hb1 y h7, rfl⟩))
      · rcases List.mem_append.1 hx with hx | hx
        · exact List.mem_append.2 (.inl (hb2 x hx hne))
        · obtain ⟨y, h7, rfl⟩ := List.mem_map.1 hx
          exact List.mem_append.2 (.inr (List.mem_map.2 ⟨y, hb2 y h7 (Ne.symm hne), rfl⟩))
    · rw [if_neg hbi, arcsOf, if_neg (by simp [hbi])]
      exact ⟨hb1, hb2⟩
  have he : (∀ x ∈ e, x ∈ c) ∧ ∀ x ∈ c, x.src ≠ x.dst → x ∈ e := by
    by_cases hdup : o.duplicatededges = 0
    · rw [if_pos hdup] at h5
      refine ⟨h5.2.1, fun x hx hne => ?_⟩
      obtain ⟨y, h7, h8, h9⟩ := h5.2.2 x hx
      have : x = y := (hd.resolve_left (fun h => h hdup)) x (hc.1 x hx) y (hc.1 y (h5.2.1 y h7)) h8.symm h9.symm hne
      exact this ▸ h7
    · rw [if_neg hdup] at h5
      subst h5
      exact ⟨fun x hx => hx, fun x hx _ => hx⟩
  exact ⟨fun x hx => hc.1 x (he.1 x (h6.mem_iff.1 hx)), fun x hx hne => h6.mem_iff.2 (he.2 x (hc.2 x hx hne) hne)⟩

/-- A permutation of `1..n` and its inverse as functions on the natural numbers. -/
theorem PermutesIds.inverse {n : Int} {π : Int → Int} (h : PermutesIds n π) :
    ∃ ρ : Nat → Nat, (∀ v : Nat, 1 ≤ v → (v : Int) ≤ n → ρ (π v).toNat = v) ∧
      ∀ w : Nat, 1 ≤ w → (w : Int) ≤ n → 1 ≤ ρ w ∧ (ρ w : Int) ≤ n ∧ (π (ρ w)).toNat = w := by
  obtain ⟨h1, h2, h3⟩ := h
  have hex : ∀ w : Nat, ∃ v : Nat, 1 ≤ w → (w : Int) ≤ n → 1 ≤ v ∧ (v : Int) ≤ n ∧ π v = w := by
    intro w
    by_cases hw : 1 ≤ w ∧ (w : Int) ≤ n
    · obtain ⟨v, a, b, c⟩ := h3 w (by omega) hw.2
      refine ⟨v.toNat, fun _ _ => ⟨by omega, by omega, ?_⟩⟩
      rw [Int.toNat_of_nonneg (by omega)]
      exact c
    · exact ⟨0, fun a b => absurd ⟨a, b⟩ hw⟩
  choose ρ hρ using hex
  refine ⟨ρ, fun v a b => ?_, fun w a b => ?_⟩
  · have hv := h1 v (by omega) b
    obtain ⟨c, d, e⟩ := hρ (π v).toNat (by omega) (by omega)
    have := h2 (ρ (π v).toNat) v (by omega) d (by omega) b (by rw [e]; omega)
    omega
  · obtain ⟨c, d, e⟩ := hρ w a b
    exact ⟨c, d, by rw [e]; omega⟩

/-- With the edges directed from the smaller to the larger id, without self loops and duplicates. -/
theorem Converted.oriented {o : Options} {n : Int} {one : E} {cast : Rat → E} {l out : List (Edge E)}
    (h : Converted o n one cast l out) (hids : IdsWithin n l) (hu : o.uppertriangular = 1) (hs : o.selfloops = 0)
    (hd : o.duplicatededges = 0) :
    ∃ π, PermutesIds n π ∧ (o.randomizeID ≠ 1 → π = id) ∧ NoParallel out ∧
      ∀ x y, HasArc out x y ↔ ∃ u v, π u = x ∧ π v = y ∧ u < v ∧ (HasArc l u v ∨ HasArc l v u) := by
  obtain ⟨e, h1, h2, h3⟩ := h.before
  have h1' : ∀ u v, HasArc e u v ↔ u < v ∧ (HasArc l u v ∨ HasArc l v u) := by
    intro u v
    rw [h1, if_pos hu]
    constructor
    · rintro ⟨a, b, c⟩
      have := a hs
      exact ⟨by omega, c⟩
    · rintro ⟨a, c⟩
      exact ⟨fun _ => by omega, by omega, c⟩
  have hin : ∀ x ∈ e, 1 ≤ x.src ∧ x.src ≤ n ∧ 1 ≤ x.dst ∧ x.dst ≤ n := by
    intro x hx
    obtain ⟨_, ⟨y, a, b, c⟩ | ⟨y, a, b, c⟩⟩ := (h1' x.src x.dst).1 ⟨x, hx, rfl, rfl⟩
    · have := hids y a
      omega
    · have := hids y a
      omega
  obtain ⟨π, p1, p2, p3⟩ : ∃ π, PermutesIds n π ∧ (o.randomizeID ≠ 1 → π = id) ∧
      out.Perm (e.map (fun x => ⟨π x.src, π x.dst, x.val⟩)) := by
    split at h3
    · rename_i hr
      obtain ⟨π, a, b⟩ := h3
      exact ⟨π, a, fun h => absurd hr h, b⟩
    · refine ⟨id, ⟨fun v a b => ⟨a, b⟩, fun u v _ _ _ _ h => h, fun w a b => ⟨w, a, b, rfl⟩⟩, fun _ => rfl, ?_⟩
      simpa using h3
  refine ⟨π, p1, p2, ?_, fun x y => ?_⟩
  · unfold NoParallel
    rw [(p3.map _).nodup_iff, List.map_map]
    have hno := h2 hd
    unfold NoParallel at hno
    have hcomp : ((fun e : Edge E => (e.src, e.dst)) ∘ fun x : Edge E => (⟨π x.src, π x.dst, x.val⟩ : Edge E)) =
        (fun q : Int × Int => (π q.1, π q.2)) ∘ (fun e : Edge E => (e.src, e.dst)) := rfl
    rw [hcomp, ← List.map_map]
    refine hno.map_on ?_
    intro q hq q' hq' heq
    obtain ⟨x, hx, rfl⟩ := List.mem_map.1 hq
    obtain ⟨x', hx', rfl⟩ := List.mem_map.1 hq'
    have a := hin x hx
    have a' := hin x' hx'
    injection heq with e1 e2
    exact Prod.ext (p1.2.1 _ _ a.1 a.2.1 a'.1 a'.2.1 e1) (p1.2.1 _ _ a.2.2.1 a.2.2.2 a'.2.2.1 a'.2.2.2 e2)
  · rw [HasArc.perm p3]
    constructor
    · rintro ⟨z, hz, hx, hy⟩
      obtain ⟨w, hw, rfl⟩ := List.mem_map.1 hz
      have := (h1' w.src w.dst).1 ⟨w, hw, rfl, rfl⟩
      exact ⟨w.src, w.dst, hx, hy, this⟩
    · rintro ⟨u, v, hx, hy, h⟩
      obtain ⟨w, hw, rfl, rfl⟩ := (h1' u v).2 h
      exact ⟨_, List.mem_map.2 ⟨w, hw, rfl⟩, hx, hy⟩

/-! ### Files with other readings of the values -/

/-- The same list with the values read in another way. -/
def EdgeList.mapVal (f : E → F) (el : EdgeList E) : EdgeList F :=
  ⟨⟨el.edges.size, fun i => (el.edges.get i).mapVal f⟩, el.m, el.n, el.nnz⟩

theorem EdgeList.mapVal_list (f : E → F) (el : EdgeList E) : (el.mapVal f).list = el.list.map (Edge.mapVal f) := by
  unfold EdgeList.list EdgeList.mapVal
  rw [List.map_map]
  rfl

theorem writeBin_mapVal {bt : BinType E} {bt' : BinType F} {f : E → F} (hf : ∀ v, bt'.enc (f v) = bt.enc v) {header weights : Bool}
    {el : EdgeList E} (h : el.WF) : writeBin bt' header weights (el.mapVal f) = writeBin bt header weights el := by
  rw [writeBin_eq (show (el.mapVal f).nnz ≤ (el.mapVal f).edges.size from h), writeBin_eq h, EdgeList.mapVal_list]
  have : ∀ e : Edge E, writeLineBin bt' weights (e.mapVal f) = writeLineBin bt weights e := by
    intro e
    unfold writeLineBin Edge.mapVal
    simp only [hf]
  rw [List.flatMap_map]
  simp only [this]
  rfl

theorem mapM_eq_of_mem {α β : Type} {f g : α → Option β} {l : List α} (h : ∀ x ∈ l, f x = g x) : l.mapM f = l.mapM g := by
  induction l with
  | nil => rfl
  | cons a l ih => rw [List.mapM_cons, List.mapM_cons, h a (by simp), ih (fun x hx => h x (by simp [hx]))]

/-- The files that one rank after the other wrote are good, whatever values the loading program sees in them. -/
theorem written_files {bt : BinType E} {bt' : BinType F} {f : E → F} (hf : ∀ v, bt'.enc (f v) = bt.enc v)
    (hok : ∀ v, bt'.Ok (f v)) {N : Int} {k : Nat} {els : List (EdgeList E)} (h : RanksOk N k els) (hk : 0 < k)
    (h0 : 0 ≤ N) (hN : N ≤ (IMAX : Int)) (hlen : (allOf els).length ≤ IMAX) :
    fileVertices (els.map (EdgeList.mapVal f)) = N.toNat ∧
      fileEdges (els.map (EdgeList.mapVal f)) = (allOf els).map (Edge.mapVal f) ∧
      (∀ p, 0 < p → FilesOk (els.map (EdgeList.mapVal f)) p) ∧
      (els.map (EdgeList.mapVal f)).mapM (writeBin bt' true true) = els.mapM (writeBin bt true true) ∧
      (∀ e ∈ fileEdges (els.map (EdgeList.mapVal f)), bt'.Ok e.val) ∧
      topOf ((els.map (EdgeList.mapVal f)).map EdgeList.m) = N ∧ topOf ((els.map (EdgeList.mapVal f)).map EdgeList.n) = N := by
  have hne : els ≠ [] := by
    intro h'
    have := h.len
    rw [h'] at this
    simp at this
    omega
  have hm : topOf ((els.map (EdgeList.mapVal f)).map EdgeList.m) = N := by
    rw [List.map_map, topOf_const hne h0 (f := EdgeList.m ∘ EdgeList.mapVal f) (fun el hel => (h.ok el hel).2.1)]
  have hn : topOf ((els.map (EdgeList.mapVal f)).map EdgeList.n) = N := by
    rw [List.map_map, topOf_const hne h0 (f := EdgeList.n ∘ EdgeList.mapVal f) (fun el hel => (h.ok el hel).2.2)]
  have hnv : fileVertices (els.map (EdgeList.mapVal f)) = N.toNat := by
    unfold fileVertices
    rw [hm, hn, max_self]
  have hfe : ∀ l : List (EdgeList E), fileEdges (l.map (EdgeList.mapVal f)) = (allOf l).map (Edge.mapVal f) := by
    intro l
    unfold fileEdges allOf
    rw [List.flatMap_map, List.map_flatMap]
    simp only [EdgeList.mapVal_list]
  have hI : IsInt32 N := by
    unfold IsInt32
    unfold IMAX at hN
    omega
  have hfs : ∀ p, 0 < p → FilesOk (els.map (EdgeList.mapVal f)) p := by
    intro p hp
    refine ⟨?_, ?_, ?_, ?_⟩
    · intro el hel
      obtain ⟨x, h1, rfl⟩ := List.mem_map.1 hel
      exact (h.ok x h1).1
    · intro el hel
      obtain ⟨x, h1, rfl⟩ := List.mem_map.1 hel
      have := h.ok x h1
      exact ⟨show IsInt32 x.m from this.2.1 ▸ hI, show IsInt32 x.n from this.2.2 ▸ hI⟩
    · intro e he
      rw [hfe] at he
      obtain ⟨x, h1, rfl⟩ := List.mem_map.1 he
      rw [hnv]
      have := h.ids x h1
      show 1 ≤ x.src ∧ x.src ≤ (N.toNat : Int) ∧ 1 ≤ x.dst ∧ x.dst ≤ (N.toNat : Int)
      omega
    · intro r hr
      rw [everyNth_map, hfe, List.length_map]
      exact Nat.le_trans (share_le hp els _ hr) hlen
  have hw : (els.map (EdgeList.mapVal f)).mapM (writeBin bt' true true) = els.mapM (writeBin bt true true) := by
    rw [List.mapM_map]
    exact mapM_eq_of_mem fun el hel => writeBin_mapVal hf (h.ok el hel).1
  have hv : ∀ e ∈ fileEdges (els.map (EdgeList.mapVal f)), bt'.Ok e.val := by
    intro e he
    rw [hfe] at he
    obtain ⟨x, _, rfl⟩ := List.mem_map.1 he
    exact hok x.val
  exact ⟨hnv, hfe els, hfs, hw, hv, hm, hn⟩

/-- What one rank after the other wrote is loaded by any number of ranks. -/
theorem written_loads {bt : BinType E} {bt' : BinType F} {f : E → F} (hf : ∀ v, bt'.enc (f v) = bt.enc v)
    (hok : ∀ v, bt'.Ok (f v)) {N : Int} {k : Nat} {els : List (EdgeList E)} (h : RanksOk N k els) (hk : 0 < k)
    (h0 : 0 ≤ N) (hN : N ≤ (IMAX : Int)) (hlen : (allOf els).length ≤ IMAX) :
    ∃ fs, els.mapM (writeBin bt true true) = some fs ∧ ∀ p, 0 < p → ∀ g : Nat → Nat → Edge F, ∃ blobs : List (List (Edge F)),
      blobs.length = p ∧ blobs.flatten.Perm ((allOf els).map (Edge.mapVal f)) ∧
      ∀ (V : Type) (env : LoadEnv V F) (threads : Nat), Graph.readMTX env bt' threads p g fs =
        (Graph.readEdgelist env threads p N.toNat N.toNat blobs).map (·.2) := by
  obtain ⟨hnv, hfe, hfs, hw, hv, _⟩ := written_files hf hok h hk h0 hN hlen
  have key := fun p hp g => readMTX_is_readEdgelist hv (nrank := p) hp (hfs p hp) g
  obtain ⟨fs, _, w1, _⟩ := key 1 (by decide) (fun _ _ => ⟨0, 0, (bt'.one)⟩)
  refine ⟨fs, by rw [← hw]; exact w1, fun p hp g => ?_⟩
  obtain ⟨fs', blobs, h1, h2, h3, h4⟩ := key p hp g
  rw [w1] at h1
  cases h1
  rw [hfe] at h3
  rw [hnv] at h4
  exact ⟨blobs, h2, h3, h4⟩

/-- `load_edgelist` of these files. -/
theorem written_lists {bt : BinType E} {bt' : BinType F} {f : E → F} (hf : ∀ v, bt'.enc (f v) = bt.enc v)
    (hok : ∀ v, bt'.Ok (f v)) {N : Int} {k : Nat} {els : List (EdgeList E)} (h : RanksOk N k els) (hk : 0 < k)
    (h0 : 0 ≤ N) (hN : N ≤ (IMAX : Int)) (hlen : (allOf els).length ≤ IMAX) {fs : List (List Nat)}
    (hfs : els.mapM (writeBin bt true true) = some fs) {p : Nat} (hp : 0 < p) (g : Nat → Nat → Edge F) :
    ∃ out, loadEdgelist (binReader bt' true) true p g fs = some out ∧ out.length = p ∧
      (∀ el ∈ out, el.WF ∧ el.m = N ∧ el.n = N) ∧ (out.map EdgeList.list).flatten.Perm ((allOf els).map (Edge.mapVal f)) := by
  obtain ⟨hnv, hfe, hfo, hw, hv, hm, hn⟩ := written_files hf hok h hk h0 hN hlen
  have hF := hfo p hp
  obtain ⟨fs', out, h1, h2, h3, h4⟩ := binary_files_load (bt := bt') true true
    (fun el hel e he => hv e (List.mem_flatMap.2 ⟨el, hel, he⟩)) hF.size hF.dim
    (by
      intro el hel e he
      have := hF.valid e (List.mem_flatMap.2 ⟨el, hel, he⟩)
      rw [hnv] at this
      unfold Edge.Valid at this
      unfold IsInt32
      unfold IMAX at hN
      omega) hp hF.share g
  rw [hw, hfs] at h1
  cases h1
  refine ⟨out, h2, h3, ?_, ?_⟩
  · intro el hel
    obtain ⟨r, hr1, hr2⟩ := List.mem_iff_getElem.1 hel
    obtain ⟨el', a1, _, _, a4, a5, a6⟩ := h4 r (by omega)
    rw [List.getElem?_eq_getElem hr1, hr2] at a1
    cases a1
    exact ⟨show el.nnz ≤ el.edges.size by omega, a5.trans hm, a6.trans hn⟩
  · have hmap : out.map EdgeList.list =
        (List.range p).map (fun r => (everyNth p r (els.map (EdgeList.mapVal f))).flatMap EdgeList.list) := by
      apply List.ext_getElem?
      intro r
      rw [List.getElem?_map, List.getElem?_map]
      by_cases hlt : r < p
      · obtain ⟨el, a1, a2, _⟩ := h4 r hlt
        rw [a1, List.getElem?_range hlt, Option.map_some, Option.map_some, a2, seenEdge_weights, List.map_id]
      · rw [List.getElem?_eq_none (by omega), List.getElem?_eq_none (by simp; omega)]; rfl
    rw [hmap, ← List.flatMap_def, ← hfe]
    have := (everyNth_perm hp (els.map (EdgeList.mapVal f))).flatMap_right (f := EdgeList.list)
    rw [List.flatMap_assoc] at this
    exact this

end GraphMat
