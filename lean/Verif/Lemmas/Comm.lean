import Mathlib.Data.Nat.Find
import Verif.Model.Comm
import Verif.Lemmas.ApplyEdges

/-! # Lemmas about the MPI calls -/
namespace GraphMat

/-! ### Programs that are views of one list of events -/

/-- An event all ranks agree on. -/
inductive CommEv (L : Type) where
  | msg (src dst : Nat) (blocking : Bool) (l : L)
  /-- non-blocking calls of all ranks -/
  | post (c : Nat → List (Call L))
  | wait
  | coll

variable {L : Type}

/-- The ranks a call talks to exist. -/
def Call.Bound (nrank : Nat) : Call L → Prop
  | .send d _ => d < nrank
  | .recv a _ => a < nrank
  | .isend d _ => d < nrank
  | .irecv a _ => a < nrank
  | _ => True

/-- The call posts a request. -/
def Call.Posts : Call L → Prop
  | .isend _ _ => True
  | .irecv _ _ => True
  | _ => False

/-- What rank `r` does for an event. -/
def CommEv.view (r : Nat) : CommEv L → List (Call L)
  | .msg a b bl l =>
    if r = a then [if bl then .send b l else .isend b l] else if r = b then [if bl then .recv a l else .irecv a l] else []
  | .post c => c r
  | .wait => [.waitall]
  | .coll => [.coll]

/-- Messages go between existing ranks, those of blocking calls between different ones; calls posted together match. -/
def CommEv.Ok (nrank : Nat) : CommEv L → Prop
  | .post c => (∀ r x, x ∈ c r → x.Posts ∧ x.Bound nrank) ∧
      ∀ a b, (c a).filterMap (Call.sentTo b) = (c b).filterMap (Call.recvFrom a)
  | .msg a b _ _ => a ≠ b ∧ a < nrank ∧ b < nrank
  | _ => True

/-- The program of rank `r`. -/
def viewAll (G : List (CommEv L)) (r : Nat) : List (Call L) := G.flatMap (CommEv.view r)

/-- Where in the list of events a rank is. -/
theorem locate_ev (f : CommEv L → List (Call L)) (G : List (CommEv L)) (pc : Nat) :
    ∃ g j, g ≤ G.length ∧
      (pc < (G.flatMap f).length → ∃ e c, G[g]? = some e ∧ (f e)[j]? = some c ∧
        (G.take g).flatMap f ++ (f e).take j = (G.flatMap f).take pc ∧ (G.flatMap f)[pc]? = some c) ∧
      ((G.flatMap f).length ≤ pc → g = G.length) := by
  induction G generalizing pc with
  | nil => exact ⟨0, 0, Nat.le_refl _, by simp, by simp⟩
  | cons e G ih =>
    rw [List.flatMap_cons]
    by_cases hp : pc < (f e).length
    · refine ⟨0, pc, Nat.zero_le _, fun _ => ⟨e, (f e)[pc], rfl, List.getElem?_eq_getElem hp, ?_, ?_⟩, ?_⟩
      · rw [List.take_zero, List.flatMap_nil, List.nil_append, List.take_append_of_le_length (by omega)]
      · rw [List.getElem?_append_left hp, List.getElem?_eq_getElem hp]
      · intro h; rw [List.length_append] at h; omega
    · obtain ⟨g, j, h1, h2, h3⟩ := ih (pc - (f e).length)
      refine ⟨g + 1, j, by rw [List.length_cons]; omega, fun h => ?_, fun h => ?_⟩
      · rw [List.length_append] at h
        obtain ⟨e', c, k1, k2, k3, k4⟩ := h2 (by omega)
        refine ⟨e', c, by rw [List.getElem?_cons_succ]; exact k1, k2, ?_, ?_⟩
        · rw [List.take_succ_cons, List.flatMap_cons, List.append_assoc, k3, List.take_append,
            List.take_of_length_le (i := pc) (l := f e) (by omega)]
        · rw [List.getElem?_append_right (by omega)]; exact k4
      · rw [List.length_append] at h
        rw [h3 (by omega), List.length_cons]

theorem view_matched {nrank : Nat} {e : CommEv L} (h : e.Ok nrank) (a b : Nat) :
    (e.view a).filterMap (Call.sentTo b) = (e.view b).filterMap (Call.recvFrom a) := by
  cases e with
  | post c => exact h.2 a b
  | wait => rfl
  | coll => rfl
  | msg s d bl l =>
    have hne : s ≠ d := h.1
    simp only [CommEv.view]
    by_cases ha : a = s
    · rw [if_pos ha]
      by_cases hb : b = d
      · have hbs : b ≠ s := fun h => hne (h.symm.trans hb)
        rw [if_neg hbs, if_pos hb]
        cases bl <;> simp [Call.sentTo, Call.recvFrom, ha, hb]
      · by_cases hbs : b = s
        · rw [if_pos hbs]
          have : d ≠ b := fun h => hb h.symm
          cases bl <;> simp [Call.sentTo, Call.recvFrom, this]
        · rw [if_neg hbs, if_neg hb]
          have : d ≠ b := fun h => hb h.symm
          cases bl <;> simp [Call.sentTo, this]
    · rw [if_neg ha]
      have hs : s ≠ a := fun h => ha h.symm
      have hl : (if a = d then [if bl = true then Call.recv s l else Call.irecv s l] else []).filterMap
          (Call.sentTo b) = [] := by
        split
        · cases bl <;> simp [Call.sentTo]
        · rfl
      rw [hl]
      split
      · cases bl <;> simp [Call.recvFrom]
      · split
        · cases bl <;> simp [Call.recvFrom, hs]
        · rfl

theorem viewAll_pairs {nrank : Nat} {G : List (CommEv L)} (h : ∀ e ∈ G, e.Ok nrank) (a b : Nat) :
    (viewAll G a).filterMap (Call.sentTo b) = (viewAll G b).filterMap (Call.recvFrom a) := by
  unfold viewAll
  induction G with
  | nil => rfl
  | cons e G ih =>
    rw [List.flatMap_cons, List.flatMap_cons, List.filterMap_append, List.filterMap_append,
      ih (fun e he => h e (List.mem_cons_of_mem _ he)), view_matched (h e List.mem_cons_self) a b]

theorem viewAll_matched (tag : L → Nat) {nrank : Nat} {G : List (CommEv L)} (h : ∀ e ∈ G, e.Ok nrank) :
    Matched tag (viewAll G) := fun a b t => congrArg (List.filter fun l => decide (tag l = t)) (viewAll_pairs h a b)

theorem view_coll {nrank : Nat} {e : CommEv L} (h : e.Ok nrank) (a b : Nat) : (e.view a).countP Call.isColl = (e.view b).countP Call.isColl := by
  cases e with
  | post c =>
    have : ∀ r, (c r).countP Call.isColl = 0 := by
      intro r
      rw [List.countP_eq_zero]
      intro x hx
      have := (h.1 r x hx).1
      cases x with
      | isend d l => simp [Call.isColl]
      | irecv d l => simp [Call.isColl]
      | send d l => cases this
      | recv d l => cases this
      | waitall => cases this
      | coll => cases this
    exact (this a).trans (this b).symm
  | wait => rfl
  | coll => rfl
  | msg s d bl l =>
    have : ∀ r, ((CommEv.msg s d bl l).view r).countP Call.isColl = 0 := by
      intro r
      simp only [CommEv.view]
      split
      · cases bl <;> simp [Call.isColl]
      · split
        · cases bl <;> simp [Call.isColl]
        · rfl
    rw [this, this]

theorem viewAll_coll {nrank : Nat} {G : List (CommEv L)} (h : ∀ e ∈ G, e.Ok nrank) (a b : Nat) :
    (viewAll G a).countP Call.isColl = (viewAll G b).countP Call.isColl := by
  unfold viewAll
  induction G with
  | nil => rfl
  | cons e G ih =>
    rw [List.flatMap_cons, List.flatMap_cons, List.countP_append, List.countP_append,
      ih (fun e he => h e (List.mem_cons_of_mem _ he)), view_coll (h e List.mem_cons_self) a b]

theorem CommEv.view_bound {nrank : Nat} {e : CommEv L} (h : e.Ok nrank) {r : Nat} {c : Call L} (hc : c ∈ e.view r) :
    c.Bound nrank := by
  cases e with
  | post f => exact (h.1 r c hc).2
  | wait => rw [List.mem_singleton.mp hc]; trivial
  | coll => rw [List.mem_singleton.mp hc]; trivial
  | msg a b bl l =>
    obtain ⟨_, h2, h3⟩ := h
    simp only [CommEv.view] at hc
    split at hc
    · rw [List.mem_singleton] at hc
      cases bl <;> (rw [hc]; exact h3)
    · split at hc
      · rw [List.mem_singleton] at hc
        cases bl <;> (rw [hc]; exact h2)
      · cases hc

/-- Ranks whose programs are views of one list of events cannot be stuck, even if no send is buffered. -/
theorem view_progress (tag : L → Nat) {nrank : Nat} {G : List (CommEv L)} (hG : ∀ e ∈ G, e.Ok nrank) (s : MpiState)
    (hs : ∃ r, r < nrank ∧ s.pc r < (viewAll G r).length) : ∃ s', MpiStep tag (viewAll G) nrank true s s' := by
  by_cases hent : ∃ r, r < nrank ∧ s.pc r < (viewAll G r).length ∧ s.inCall r = false
  · obtain ⟨r, h1, h2, h3⟩ := hent
    exact ⟨_, MpiStep.enter r h1 h3 h2⟩
  have hin : ∀ r, r < nrank → s.pc r < (viewAll G r).length → s.inCall r = true := by
    intro r h1 h2
    cases h : s.inCall r with
    | true => rfl
    | false => exact absurd ⟨r, h1, h2, h⟩ hent
  choose loc off l1 l3 l4 using fun r => locate_ev (CommEv.view r) G (s.pc r)
  -- the unfinished rank that is furthest behind
  have hmin : ∃ r, r < nrank ∧ s.pc r < (viewAll G r).length ∧
      ∀ q, q < nrank → s.pc q < (viewAll G q).length → loc r ≤ loc q := by
    classical
    have hex : ∃ g, ∃ r, r < nrank ∧ s.pc r < (viewAll G r).length ∧ loc r = g := by
      obtain ⟨r, h1, h2⟩ := hs
      exact ⟨loc r, r, h1, h2, rfl⟩
    obtain ⟨r, h1, h2, h3⟩ := Nat.find_spec hex
    refine ⟨r, h1, h2, fun q k1 k2 => ?_⟩
    rw [h3]
    exact Nat.find_min' hex ⟨q, k1, k2, rfl⟩
  obtain ⟨r, hr, hpc, hmin⟩ := hmin
  obtain ⟨e, c, e1, e2, e4, e3⟩ := l3 r hpc
  -- posting a request never takes long
  by_cases hpost : c.Posts
  · refine ⟨_, MpiStep.ret r c hr (hin r hr hpc) e3 ?_⟩
    cases c with
    | isend d l => trivial
    | irecv d l => trivial
    | send d l => cases hpost
    | recv d l => cases hpost
    | waitall => cases hpost
    | coll => cases hpost
  have hOke : e.Ok nrank := hG e (List.mem_of_getElem? e1)
  -- otherwise the event makes every rank do at most one call
  have hone : ∀ q c', c' ∈ e.view q → e.view q = [c'] := by
    intro q c' hc'
    cases e with
    | post f => exact absurd (hOke.1 r c (List.mem_of_getElem? e2)).1 hpost
    | wait => rw [List.mem_singleton.mp hc']; rfl
    | coll => rw [List.mem_singleton.mp hc']; rfl
    | msg a b bl l =>
      simp only [CommEv.view] at hc' ⊢
      split at hc'
      · next h => rw [if_pos h, List.mem_singleton.mp hc']
      · next h =>
        rw [if_neg h]
        split at hc'
        · next h2 => rw [if_pos h2, List.mem_singleton.mp hc']
        · cases hc'
  have hlt : loc r < G.length := by
    rcases Nat.lt_or_ge (loc r) G.length with h | h
    · exact h
    · rw [List.getElem?_eq_none h] at e1; cases e1
  have hsucc : ∀ q, (G.take (loc r + 1)).flatMap (CommEv.view q) =
      (G.take (loc r)).flatMap (CommEv.view q) ++ e.view q := by
    intro q
    rw [List.take_add_one, e1]
    simp [List.flatMap_append]
  -- a rank that is in this event has made exactly the calls that belong to the events up to and including it
  have hat : ∀ q, q < nrank → s.pc q < (viewAll G q).length → loc q = loc r →
      s.made (viewAll G) q = viewAll (G.take (loc r + 1)) q := by
    intro q hq hfin heq
    obtain ⟨e', c', k1, k2, k3, k4⟩ := l3 q hfin
    rw [heq, e1] at k1
    cases k1
    have hv := hone q c' (List.mem_of_getElem? k2)
    rw [hv] at k2 k3
    have hj : off q = 0 := by
      rcases Nat.eq_zero_or_pos (off q) with h | h
      · exact h
      · rw [List.getElem?_eq_none (show [c'].length ≤ off q from h)] at k2; cases k2
    rw [hj, List.take_zero, List.append_nil, heq] at k3
    unfold MpiState.made viewAll
    rw [hin q hq hfin, if_pos rfl, List.take_add_one, hsucc, ← k3, hv]
    have : (G.flatMap (CommEv.view q))[s.pc q]? = some c' := k4
    rw [this]; rfl
  have hmade := hat r hr hpc rfl
  -- every rank has made at least the calls that belong to the events up to and including this one
  have hpre : ∀ q, q < nrank → viewAll (G.take (loc r + 1)) q <+: s.made (viewAll G) q := by
    intro q hq
    have hmono : ∀ g, loc r + 1 ≤ g → viewAll (G.take (loc r + 1)) q <+: viewAll (G.take g) q := by
      intro g hg
      unfold viewAll
      have : G.take (loc r + 1) <+: G.take g := (List.take_prefix_take_left hg)
      obtain ⟨t, ht⟩ := this
      exact ⟨t.flatMap (CommEv.view q), by rw [← ht, List.flatMap_append]⟩
    have htake : ∀ k, s.pc q ≤ k → (viewAll G q).take (s.pc q) <+: (viewAll G q).take k := fun k hk =>
      List.take_prefix_take_left hk
    by_cases hfin : s.pc q < (viewAll G q).length
    · have hle := hmin q hq hfin
      by_cases heq : loc q = loc r
      · rw [hat q hq hfin heq]
        exact List.prefix_refl _
      · refine (hmono (loc q) (by omega)).trans ?_
        obtain ⟨e', c', k1, k2, k3, k4⟩ := l3 q hfin
        have : viewAll (G.take (loc q)) q <+: (viewAll G q).take (s.pc q) := ⟨_, k3⟩
        exact this.trans (htake _ (by omega))
    · have hg : loc q = G.length := l4 q (by unfold viewAll at hfin; omega)
      refine (hmono (loc q) (by omega)).trans ?_
      rw [hg, List.take_length]
      unfold MpiState.made
      rw [List.take_of_length_le (by omega)]
      exact List.prefix_refl _
  have hOk : ∀ x ∈ G.take (loc r + 1), x.Ok nrank := fun x hx => hG x (List.mem_of_mem_take hx)
  have hsent : ∀ d t, d < nrank → s.sent tag (viewAll G) r d t ≤ s.recvd tag (viewAll G) d r t := by
    intro d t hd
    unfold MpiState.sent MpiState.recvd
    rw [hmade, viewAll_matched tag hOk r d t]
    exact (((hpre d hd).filterMap _).filter _).length_le
  have hrecv : ∀ a t, a < nrank → s.recvd tag (viewAll G) r a t ≤ s.sent tag (viewAll G) a r t := by
    intro a t ha
    unfold MpiState.sent MpiState.recvd
    rw [hmade, ← viewAll_matched tag hOk a r t]
    exact (((hpre a ha).filterMap _).filter _).length_le
  refine ⟨_, MpiStep.ret r c hr (hin r hr hpc) e3 ?_⟩
  have hb : c.Bound nrank := CommEv.view_bound hOke (List.mem_of_getElem? e2)
  cases c with
  | isend d l => trivial
  | irecv d l => trivial
  | send d l => exact fun _ => hsent d (tag l) hb
  | recv a l => exact hrecv a (tag l) hb
  | waitall => exact ⟨fun _ => hsent, hrecv⟩
  | coll =>
    intro q hq
    unfold MpiState.colls
    rw [hmade, viewAll_coll hOk r q]
    exact (hpre q hq).sublist.countP_le

/-! ### Steps -/

variable {tag : L → Nat} {P : Nat → List (Call L)}

/-- Twice the number of calls that have returned, plus one if the rank is in a call. -/
def MpiState.work (nrank : Nat) (s : MpiState) : Nat :=
  ((List.range nrank).map (fun r => 2 * s.pc r + if s.inCall r then 1 else 0)).sum

theorem sum_update {n r : Nat} (hr : r < n) {f g : Nat → Nat} (h : ∀ q, q ≠ r → f q = g q) (h1 : g r = f r + 1) :
    ((List.range n).map g).sum = ((List.range n).map f).sum + 1 := by
  induction n with
  | zero => omega
  | succ n ih =>
    rw [List.range_succ, List.map_append, List.map_append, List.sum_append, List.sum_append]
    simp only [List.map_cons, List.map_nil, List.sum_cons, List.sum_nil]
    by_cases hn : r = n
    · have : (List.range n).map g = (List.range n).map f :=
        List.map_congr_left (fun q hq => (h q (by have := List.mem_range.mp hq; omega)).symm)
      rw [this, ← hn, h1]; omega
    · rw [ih (by omega), h n (fun h => hn h.symm)]; omega

theorem MpiStep.work {nrank : Nat} {sync : Bool} {s t : MpiState} (h : MpiStep tag P nrank sync s t) :
    t.work nrank = s.work nrank + 1 := by
  cases h with
  | enter r h1 h2 h3 =>
    refine sum_update h1 (fun q hq => ?_) ?_
    · show _ = 2 * s.pc q + if Function.update s.inCall r true q then 1 else 0
      rw [Function.update_of_ne hq]
    · show 2 * s.pc r + (if Function.update s.inCall r true r then 1 else 0) = _
      rw [Function.update_self, h2]; rfl
  | ret r c h1 h2 h3 h4 =>
    refine sum_update h1 (fun q hq => ?_) ?_
    · show _ = 2 * Function.update s.pc r _ q + if Function.update s.inCall r false q then 1 else 0
      rw [Function.update_of_ne hq, Function.update_of_ne hq]
    · show 2 * Function.update s.pc r _ r + (if Function.update s.inCall r false r then 1 else 0) = _
      rw [Function.update_self, Function.update_self, h2]
      simp; omega

/-- What holds in every state that is reached. -/
def MpiState.Fits (P : Nat → List (Call L)) (s : MpiState) : Prop :=
  ∀ r, s.pc r ≤ (P r).length ∧ (s.inCall r = true → s.pc r < (P r).length)

theorem MpiStep.fits {nrank : Nat} {sync : Bool} {s t : MpiState} (h : MpiStep tag P nrank sync s t) (hs : s.Fits P) :
    t.Fits P := by
  cases h with
  | enter r h1 h2 h3 =>
    intro q
    refine ⟨(hs q).1, fun h => ?_⟩
    by_cases hq : q = r
    · rw [hq]; exact h3
    · have : Function.update s.inCall r true q = true := h
      rw [Function.update_of_ne hq] at this
      exact (hs q).2 this
  | ret r c h1 h2 h3 h4 =>
    intro q
    show Function.update s.pc r _ q ≤ _ ∧ (Function.update s.inCall r false q = true → Function.update s.pc r _ q < _)
    by_cases hq : q = r
    · subst hq
      rw [Function.update_self, Function.update_self]
      exact ⟨(hs q).2 h2, fun h => by cases h⟩
    · rw [Function.update_of_ne hq, Function.update_of_ne hq]
      exact hs q

theorem MpiSteps.fits {nrank : Nat} {sync : Bool} {k : Nat} {s t : MpiState} (h : MpiSteps tag P nrank sync k s t)
    (hs : s.Fits P) : t.Fits P := by
  induction h with
  | zero => exact hs
  | succ _ h2 ih => exact h2.fits (ih hs)

theorem MpiSteps.work {nrank : Nat} {sync : Bool} {k : Nat} {s t : MpiState} (h : MpiSteps tag P nrank sync k s t) :
    t.work nrank = s.work nrank + k := by
  induction h with
  | zero => rfl
  | succ _ h2 ih => rw [h2.work, ih]; omega

theorem MpiState.Fits.work {nrank : Nat} {s : MpiState} (h : s.Fits P) :
    s.work nrank ≤ 2 * ((List.range nrank).map (fun r => (P r).length)).sum := by
  unfold MpiState.work
  induction nrank with
  | zero => simp
  | succ n ih =>
    rw [List.range_succ, List.map_append, List.map_append, List.sum_append, List.sum_append]
    simp only [List.map_cons, List.map_nil, List.sum_cons, List.sum_nil]
    have := h n
    have h2 : (2 * s.pc n + if s.inCall n then 1 else 0) ≤ 2 * (P n).length := by
      by_cases hc : s.inCall n = true
      · rw [if_pos hc]; have := this.2 hc; omega
      · rw [if_neg hc]; omega
    omega

theorem init_fits : MpiState.init.Fits P := fun _ => ⟨Nat.zero_le _, fun h => by cases h⟩

theorem init_work (nrank : Nat) : MpiState.init.work nrank = 0 := by
  unfold MpiState.work MpiState.init
  induction nrank with
  | zero => rfl
  | succ n ih =>
    rw [List.range_succ, List.map_append, List.sum_append, ih]; rfl

/-- A send that may return when nothing is buffered may return in any case. -/
theorem MpiStep.mono {nrank : Nat} {s t : MpiState} (h : MpiStep tag P nrank true s t) (sync : Bool) :
    MpiStep tag P nrank sync s t := by
  cases h with
  | enter r h1 h2 h3 => exact .enter r h1 h2 h3
  | ret r c h1 h2 h3 h4 =>
    refine .ret r c h1 h2 h3 ?_
    cases c with
    | send d l => exact fun _ => h4 rfl
    | recv a l => exact h4
    | isend d l => trivial
    | irecv a l => trivial
    | waitall => exact ⟨fun _ => h4.1 rfl, h4.2⟩
    | coll => exact h4

theorem MpiSteps.head {nrank : Nat} {sync : Bool} {k : Nat} {s t u : MpiState} (h1 : MpiStep tag P nrank sync s t)
    (h2 : MpiSteps tag P nrank sync k t u) : MpiSteps tag P nrank sync (k + 1) s u := by
  induction h2 with
  | zero => exact .succ (.zero s) h1
  | succ _ h3 ih => exact .succ (ih h1) h3

/-- Only the programs of existing ranks matter. -/
theorem MpiStep.congr {nrank : Nat} {sync : Bool} {Q : Nat → List (Call L)} {s t : MpiState}
    (h : MpiStep tag P nrank sync s t) (hPQ : ∀ r, r < nrank → P r = Q r)
    (hb : ∀ r c, r < nrank → c ∈ P r → c.Bound nrank) : MpiStep tag Q nrank sync s t := by
  have hm : ∀ r, r < nrank → s.made P r = s.made Q r := by
    intro r hr
    unfold MpiState.made
    rw [hPQ r hr]
  cases h with
  | enter r h1 h2 h3 => exact .enter r h1 h2 (by rw [← hPQ r h1]; exact h3)
  | ret r c h1 h2 h3 h4 =>
    have hc := hb r c h1 (List.mem_of_getElem? h3)
    have hs : ∀ a b t, a < nrank → s.sent tag P a b t = s.sent tag Q a b t := by
      intro a b t ha; unfold MpiState.sent; rw [hm a ha]
    have hr : ∀ a b t, a < nrank → s.recvd tag P a b t = s.recvd tag Q a b t := by
      intro a b t ha; unfold MpiState.recvd; rw [hm a ha]
    have hl : ∀ a, a < nrank → s.colls P a = s.colls Q a := by
      intro a ha; unfold MpiState.colls; rw [hm a ha]
    refine .ret r c h1 h2 (by rw [← hPQ r h1]; exact h3) ?_
    cases c with
    | send d l => intro e; rw [← hs r d _ h1, ← hr d r _ hc]; exact h4 e
    | recv a l =>
      show s.recvd tag Q r a _ ≤ s.sent tag Q a r _
      rw [← hr r a _ h1, ← hs a r _ hc]; exact h4
    | isend d l => trivial
    | irecv a l => trivial
    | waitall =>
      refine ⟨fun e d t hd => ?_, fun a t ha => ?_⟩
      · rw [← hs r d t h1, ← hr d r t hd]; exact h4.1 e d t hd
      · rw [← hr r a t h1, ← hs a r t ha]; exact h4.2 a t ha
    | coll =>
      intro q hq
      rw [← hl r h1, ← hl q hq]; exact h4 q hq

/-! ### The programs of the ranks are views of one list of events -/

/-- The events of a loop over (segment, rank) in which the owners send metadata. -/
def bcastNnzEvs (nrank op vec : Nat) (pairs : List (Nat × Nat)) : List (CommEv Label) :=
  pairs.flatMap (fun jr => if jr.1 % nrank = jr.2 then [] else [.msg (jr.1 % nrank) jr.2 true ⟨op, vec, jr.1, none⟩])

/-- The events of a loop in which the owners send segments. -/
def bcastSegEvs (nrank op vec : Nat) (v : CommVec) (pairs : List (Nat × Nat)) : List (CommEv Label) :=
  pairs.flatMap (fun jr => if jr.1 % nrank = jr.2 then [] else
    (List.range (numParts v.ser (v.cap jr.1) (v.nnz jr.1 (jr.1 % nrank)))).map
      (fun k => .msg (jr.1 % nrank) jr.2 false ⟨op, vec, jr.1, some k⟩))

/-- The events of a loop in which metadata goes to the owners. -/
def reduceNnzEvs (nrank op vec : Nat) (pairs : List (Nat × Nat)) : List (CommEv Label) :=
  pairs.flatMap (fun ir => if ir.1 % nrank = ir.2 then [] else [.msg ir.2 (ir.1 % nrank) true ⟨op, vec, ir.1, none⟩])

/-- The events of a loop in which segments go to the owners. -/
def reduceSegEvs (nrank op vec : Nat) (v : CommVec) (pairs : List (Nat × Nat)) : List (CommEv Label) :=
  pairs.flatMap (fun ir => if ir.1 % nrank = ir.2 then [] else
    (List.range (numParts v.ser (v.cap ir.1) (v.nnz ir.1 ir.2))).map
      (fun k => .msg ir.2 (ir.1 % nrank) false ⟨op, vec, ir.1, some k⟩))

theorem viewAll_append (G H : List (CommEv L)) (r : Nat) : viewAll (G ++ H) r = viewAll G r ++ viewAll H r := by
  unfold viewAll; rw [List.flatMap_append]

theorem viewAll_map_isend {r b : Nat} (l : List Nat) (f : Nat → Label) :
    viewAll (l.map (fun k => CommEv.msg r b false (f k))) r = l.map (fun k => Call.isend b (f k)) := by
  unfold viewAll
  induction l with
  | nil => rfl
  | cons k l ih => rw [List.map_cons, List.flatMap_cons, ih]; simp [CommEv.view]

theorem viewAll_map_irecv {r a : Nat} (h : r ≠ a) (l : List Nat) (f : Nat → Label) :
    viewAll (l.map (fun k => CommEv.msg a r false (f k))) r = l.map (fun k => Call.irecv a (f k)) := by
  unfold viewAll
  induction l with
  | nil => rfl
  | cons k l ih => rw [List.map_cons, List.flatMap_cons, ih]; simp [CommEv.view, h]

theorem viewAll_map_other {r a b : Nat} (h : r ≠ a) (h' : r ≠ b) (l : List Nat) (f : Nat → Label) :
    viewAll (l.map (fun k => CommEv.msg a b false (f k))) r = [] := by
  unfold viewAll
  induction l with
  | nil => rfl
  | cons k l ih => rw [List.map_cons, List.flatMap_cons, ih]; simp [CommEv.view, h, h']

theorem bcastNnz_spec {nrank : Nat} (h : 0 < nrank) (op vec : Nat) (v : CommVec) (r : Nat) (pairs : List (Nat × Nat))
    (md : Nat → Option Int) (cs : List (Call Label)) :
    ∃ md', bcastNnz nrank op vec v r pairs (md, cs) =
        some (md', cs ++ viewAll (bcastNnzEvs nrank op vec pairs) r) ∧
      (∀ j, (j, r) ∈ pairs → j % nrank ≠ r → md' j = some (v.nnz j (j % nrank))) ∧
      ∀ j, md j = some (v.nnz j (j % nrank)) → md' j = some (v.nnz j (j % nrank)) := by
  induction pairs generalizing md cs with
  | nil => exact ⟨md, by simp [bcastNnz, bcastNnzEvs, viewAll], by simp, fun _ h => h⟩
  | cons jr pairs ih =>
    unfold bcastNnz at ih ⊢
    obtain ⟨j, q⟩ := jr
    rw [List.foldlM_cons]
    simp only [Option.bind_eq_bind] at ih ⊢
    rw [segOwner_eq h, Option.bind_some, Option.bind_some]
    have hev : bcastNnzEvs nrank op vec ((j, q) :: pairs) =
        (if j % nrank = q then [] else [.msg (j % nrank) q true ⟨op, vec, j, none⟩]) ++ bcastNnzEvs nrank op vec pairs := by
      unfold bcastNnzEvs; rw [List.flatMap_cons]
    rw [hev, viewAll_append]
    by_cases hoq : j % nrank = q
    · rw [if_pos hoq]
      rw [if_neg (by omega), if_neg (by omega)]
      obtain ⟨md', h1, h2, h3⟩ := ih md cs
      refine ⟨md', h1, ?_, h3⟩
      intro k hk hkr
      rw [List.mem_cons] at hk
      rcases hk with hk | hk
      · cases hk; exact absurd hoq hkr
      · exact h2 k hk hkr
    · rw [if_neg hoq]
      by_cases hro : r = j % nrank
      · rw [if_neg (fun h => h.2 hro), if_pos ⟨hro, by omega⟩]
        obtain ⟨md', h1, h2, h3⟩ := ih md (cs ++ [.send q ⟨op, vec, j, none⟩])
        refine ⟨md', ?_, ?_, h3⟩
        · rw [h1, List.append_assoc]
          simp [viewAll, CommEv.view, hro]
        · intro k hk hkr
          rw [List.mem_cons] at hk
          rcases hk with hk | hk
          · cases hk; omega
          · exact h2 k hk hkr
      · by_cases hrq : r = q
        · rw [if_pos ⟨hrq, hro⟩, if_neg (fun h => hro h.1)]
          obtain ⟨md', h1, h2, h3⟩ := ih (fun k => if k = j then some (v.nnz j (j % nrank)) else md k)
            (cs ++ [.recv (j % nrank) ⟨op, vec, j, none⟩])
          refine ⟨md', ?_, ?_, ?_⟩
          · rw [h1, List.append_assoc]
            simp [viewAll, CommEv.view, hro, ← hrq]
          · intro k hk hkr
            rw [List.mem_cons] at hk
            rcases hk with hk | hk
            · cases hk
              exact h3 j (by simp)
            · exact h2 k hk hkr
          · intro k hk
            apply h3
            by_cases hkj : k = j
            · simp [hkj]
            · simp [hkj, hk]
        · rw [if_neg (fun h => hrq h.1), if_neg (fun h => hro h.1)]
          obtain ⟨md', h1, h2, h3⟩ := ih md cs
          refine ⟨md', ?_, ?_, h3⟩
          · rw [h1]
            simp [viewAll, CommEv.view, hro, hrq]
          · intro k hk hkr
            rw [List.mem_cons] at hk
            rcases hk with hk | hk
            · cases hk; exact absurd rfl hrq
            · exact h2 k hk hkr

theorem bcastSeg_spec {nrank : Nat} (h : 0 < nrank) (op vec : Nat) (v : CommVec) (r : Nat) (pairs : List (Nat × Nat))
    (md : Nat → Option Int) (cs : List (Call Label))
    (hmd : ∀ j, (j, r) ∈ pairs → j % nrank ≠ r → md j = some (v.nnz j (j % nrank))) :
    bcastSeg nrank op vec v r md pairs cs = some (cs ++ viewAll (bcastSegEvs nrank op vec v pairs) r) := by
  induction pairs generalizing cs with
  | nil => simp [bcastSeg, bcastSegEvs, viewAll]
  | cons jr pairs ih =>
    unfold bcastSeg at ih ⊢
    obtain ⟨j, q⟩ := jr
    rw [List.foldlM_cons]
    simp only [Option.bind_eq_bind] at ih ⊢
    rw [segOwner_eq h, Option.bind_some]
    have hev : bcastSegEvs nrank op vec v ((j, q) :: pairs) =
        (if j % nrank = q then [] else (List.range (numParts v.ser (v.cap j) (v.nnz j (j % nrank)))).map
          (fun k => .msg (j % nrank) q false ⟨op, vec, j, some k⟩)) ++ bcastSegEvs nrank op vec v pairs := by
      unfold bcastSegEvs; rw [List.flatMap_cons]
    have ih' := fun cs => ih cs (fun k hk => hmd k (List.mem_cons_of_mem _ hk))
    rw [hev, viewAll_append]
    by_cases hoq : j % nrank = q
    · rw [if_pos hoq]
      rw [if_neg (by omega), if_neg (by omega), Option.bind_some]
      exact ih' cs
    · rw [if_neg hoq]
      by_cases hro : r = j % nrank
      · rw [if_neg (fun h => h.2 hro), if_pos ⟨hro, by omega⟩, Option.bind_some, ih', List.append_assoc]
        rw [← hro, viewAll_map_isend]
        rfl
      · by_cases hrq : r = q
        · rw [if_pos ⟨hrq, hro⟩, if_neg (fun h => hro h.1)]
          rw [hmd j (by rw [hrq]; exact List.mem_cons_self) (fun h => hro h.symm), Option.bind_some, Option.bind_some,
            ih', List.append_assoc, ← hrq, viewAll_map_irecv hro]
          rfl
        · rw [if_neg (fun h => hrq h.1), if_neg (fun h => hro h.1), Option.bind_some, ih', viewAll_map_other hro hrq]
          rfl

/-- What `queued_md` of a segment holds for a list of pairs still to be received. -/
def mdQueue (nrank : Nat) (v : CommVec) (r : Nat) (pairs : List (Nat × Nat)) (i : Nat) : List Int :=
  ((pairs.filter (fun ir => ir.1 = i ∧ r = ir.1 % nrank ∧ r ≠ ir.2)).map (fun ir => v.nnz ir.1 ir.2)).reverse

theorem reduceNnz_spec {nrank : Nat} (h : 0 < nrank) (op vec : Nat) (v : CommVec) (r : Nat) (pairs : List (Nat × Nat))
    (q : Nat → List Int) (cs : List (Call Label)) :
    reduceNnz nrank op vec v r pairs (q, cs) =
        some (fun i => mdQueue nrank v r pairs i ++ q i, cs ++ viewAll (reduceNnzEvs nrank op vec pairs) r) := by
  induction pairs generalizing q cs with
  | nil => simp [reduceNnz, reduceNnzEvs, viewAll, mdQueue]
  | cons jr pairs ih =>
    unfold reduceNnz at ih ⊢
    obtain ⟨i, s⟩ := jr
    rw [List.foldlM_cons]
    simp only [Option.bind_eq_bind] at ih ⊢
    rw [segOwner_eq h, Option.bind_some, Option.bind_some]
    have hev : reduceNnzEvs nrank op vec ((i, s) :: pairs) =
        (if i % nrank = s then [] else [.msg s (i % nrank) true ⟨op, vec, i, none⟩]) ++ reduceNnzEvs nrank op vec pairs := by
      unfold reduceNnzEvs; rw [List.flatMap_cons]
    rw [hev, viewAll_append]
    have hq : ∀ k, mdQueue nrank v r ((i, s) :: pairs) k =
        mdQueue nrank v r pairs k ++ if i = k ∧ r = i % nrank ∧ r ≠ s then [v.nnz i s] else [] := by
      intro k
      unfold mdQueue
      rw [List.filter_cons]
      by_cases hc : i = k ∧ r = i % nrank ∧ r ≠ s
      · rw [if_pos (decide_eq_true hc), if_pos hc]; simp
      · rw [if_neg (by simpa using hc), if_neg hc]; simp
    by_cases hos : i % nrank = s
    · rw [if_pos hos]
      rw [if_neg (by omega), if_neg (by omega), ih]
      congr 2
      funext k
      rw [hq, if_neg (by omega)]; simp
    · rw [if_neg hos]
      by_cases hro : r = i % nrank
      · rw [if_neg (fun h => h.1 hro), if_pos ⟨hro, by omega⟩, ih]
        have hrs : r ≠ s := by omega
        congr 2
        · funext k
          rw [hq]
          by_cases hk : k = i
          · rw [if_pos hk, if_pos ⟨hk.symm, hro, hrs⟩]; simp
          · rw [if_neg hk, if_neg (fun h => hk h.1.symm)]; simp
        · rw [List.append_assoc]
          have hs : i % nrank ≠ s := hos
          simp [viewAll, CommEv.view, hro, hs]
      · have hf : (fun k => mdQueue nrank v r ((i, s) :: pairs) k ++ q k) =
            fun k => mdQueue nrank v r pairs k ++ q k := by
          funext k
          rw [hq, if_neg (fun h => hro h.2.1)]; simp
        rw [hf]
        by_cases hrs : r = s
        · rw [if_pos ⟨hro, hrs⟩, if_neg (fun h => hro h.1), ih, List.append_assoc]
          simp [viewAll, CommEv.view, hrs]
        · rw [if_neg (fun h => hrs h.2), if_neg (fun h => hro h.1), ih]
          simp [viewAll, CommEv.view, hro, hrs]

theorem reduceSeg_spec {nrank : Nat} (h : 0 < nrank) (op vec : Nat) (v : CommVec) (r : Nat) (pairs : List (Nat × Nat))
    (q : Nat → List Int) (cs : List (Call Label)) :
    reduceSeg nrank op vec v r pairs (fun i => q i ++ mdQueue nrank v r pairs i, cs) =
        some (q, cs ++ viewAll (reduceSegEvs nrank op vec v pairs) r) := by
  induction pairs generalizing q cs with
  | nil => simp [reduceSeg, reduceSegEvs, viewAll, mdQueue]
  | cons jr pairs ih =>
    unfold reduceSeg at ih ⊢
    obtain ⟨i, s⟩ := jr
    rw [List.foldlM_cons]
    simp only [Option.bind_eq_bind] at ih ⊢
    rw [segOwner_eq h, Option.bind_some]
    have hev : reduceSegEvs nrank op vec v ((i, s) :: pairs) =
        (if i % nrank = s then [] else (List.range (numParts v.ser (v.cap i) (v.nnz i s))).map
          (fun k => .msg s (i % nrank) false ⟨op, vec, i, some k⟩)) ++ reduceSegEvs nrank op vec v pairs := by
      unfold reduceSegEvs; rw [List.flatMap_cons]
    rw [hev, viewAll_append]
    have hq : ∀ k, mdQueue nrank v r ((i, s) :: pairs) k =
        mdQueue nrank v r pairs k ++ if i = k ∧ r = i % nrank ∧ r ≠ s then [v.nnz i s] else [] := by
      intro k
      unfold mdQueue
      rw [List.filter_cons]
      by_cases hc : i = k ∧ r = i % nrank ∧ r ≠ s
      · rw [if_pos (decide_eq_true hc), if_pos hc]; simp
      · rw [if_neg (by simpa using hc), if_neg hc]; simp
    have hf0 : (¬ (r = i % nrank ∧ r ≠ s)) → (fun k => q k ++ mdQueue nrank v r ((i, s) :: pairs) k) =
        fun k => q k ++ mdQueue nrank v r pairs k := by
      intro hn
      funext k
      rw [hq, if_neg (fun h => hn h.2)]; simp
    by_cases hos : i % nrank = s
    · rw [if_pos hos]
      rw [if_neg (by omega), Option.bind_some, if_neg (by omega), Option.bind_some, hf0 (by omega), ih]
      rfl
    · rw [if_neg hos]
      by_cases hro : r = i % nrank
      · have hrs : r ≠ s := by omega
        rw [if_pos ⟨hro, hrs⟩]
        have hl : (q i ++ mdQueue nrank v r ((i, s) :: pairs) i).getLast? = some (v.nnz i s) := by
          rw [hq, if_pos ⟨rfl, hro, hrs⟩, ← List.append_assoc, List.getLast?_concat]
        rw [hl, Option.bind_some, Option.bind_some, if_neg (fun h => h.1 hro), Option.bind_some]
        have hf : (fun k => if k = i then (q k ++ mdQueue nrank v r ((i, s) :: pairs) k).dropLast
            else q k ++ mdQueue nrank v r ((i, s) :: pairs) k) = fun k => q k ++ mdQueue nrank v r pairs k := by
          funext k
          rw [hq]
          by_cases hk : k = i
          · rw [if_pos hk, if_pos ⟨hk.symm, hro, hrs⟩, ← List.append_assoc, List.dropLast_concat]
          · rw [if_neg hk, if_neg (fun h => hk h.1.symm), List.append_nil]
        rw [hf, ih, List.append_assoc, ← hro, viewAll_map_irecv hrs]
        rfl
      · rw [if_neg (fun h => hro h.1), Option.bind_some, hf0 (fun h => hro h.1)]
        by_cases hrs : r = s
        · rw [if_pos ⟨hro, hrs⟩, Option.bind_some, ih, List.append_assoc, ← hrs, viewAll_map_isend]
          rfl
        · rw [if_neg (fun h => hrs h.2), Option.bind_some, ih, viewAll_map_other hrs hro]
          rfl

/-! ### Whole operations -/

/-- All ranks have the same table of tile owners: `k` by `k` tiles, tile `(i, j)` on rank `ow i j`. -/
structure DMat.Agree {E : Type} (D : DMat E) (k nrank : Nat) (ow : Nat → Nat → Nat) : Prop where
  mats : ∀ r, r < nrank → ∃ M, D[r]? = some M ∧ M.ntx = k ∧ M.nty = k ∧
    ∀ i j, i < k → j < k → M.node i j = some (ow i j)
  own : ∀ i j, i < k → j < k → ow i j < nrank

/-- The pairs visited by a loop over rank sets. -/
def pairsOf (k : Nat) (S : Nat → List Nat) : List (Nat × Nat) :=
  ((List.range k).map (fun j => (S j).map (fun r => (j, r)))).flatten

theorem rankPairs_eq {k : Nat} {ranks : Nat → Option (List Nat)} {S : Nat → List Nat}
    (hS : ∀ j, j < k → ranks j = some (S j)) : rankPairs k ranks = some (pairsOf k S) := by
  unfold rankPairs
  rw [mapM_some (g := fun j => (S j).map (fun r => (j, r)))]
  · rfl
  · intro j hj
    rw [hS j (List.mem_range.mp hj)]; rfl

theorem mem_pairsOf {k : Nat} {S : Nat → List Nat} {jr : Nat × Nat} :
    jr ∈ pairsOf k S ↔ jr.1 < k ∧ jr.2 ∈ S jr.1 := by
  unfold pairsOf
  rw [List.mem_flatten]
  constructor
  · rintro ⟨l, h1, h2⟩
    rw [List.mem_map] at h1
    obtain ⟨j, h3, rfl⟩ := h1
    rw [List.mem_map] at h2
    obtain ⟨r, h4, rfl⟩ := h2
    exact ⟨List.mem_range.mp h3, h4⟩
  · rintro ⟨h1, h2⟩
    exact ⟨_, List.mem_map.mpr ⟨jr.1, List.mem_range.mpr h1, rfl⟩, List.mem_map.mpr ⟨jr.2, h2, rfl⟩⟩

/-- Column partners. -/
def colS (k : Nat) (ow : Nat → Nat → Nat) (j : Nat) : List Nat := rankSet ((List.range k).map (fun i => ow i j))
/-- Row partners. -/
def rowS (k : Nat) (ow : Nat → Nat → Nat) (i : Nat) : List Nat := rankSet ((List.range k).map (fun j => ow i j))
/-- Row and column partners. -/
def rowcolS (k : Nat) (ow : Nat → Nat → Nat) (j : Nat) : List Nat := rankSet (rowS k ow j ++ colS k ow j)

variable {E : Type}

theorem colRanks_eq {M : RMat E} {k : Nat} {ow : Nat → Nat → Nat} (hy : M.nty = k)
    (hn : ∀ i j, i < k → j < k → M.node i j = some (ow i j)) {j : Nat} (hj : j < k) :
    M.colRanks j = some (colS k ow j) := by
  unfold RMat.colRanks colS
  rw [hy, mapM_some (g := fun i => ow i j) (fun i hi => hn i j (List.mem_range.mp hi) hj)]
  rfl

theorem rowRanks_eq {M : RMat E} {k : Nat} {ow : Nat → Nat → Nat} (hx : M.ntx = k)
    (hn : ∀ i j, i < k → j < k → M.node i j = some (ow i j)) {i : Nat} (hi : i < k) :
    M.rowRanks i = some (rowS k ow i) := by
  unfold RMat.rowRanks rowS
  rw [hx, mapM_some (g := fun j => ow i j) (fun j hj => hn i j hi (List.mem_range.mp hj))]
  rfl

theorem rowcolRanks_eq {M : RMat E} {k : Nat} {ow : Nat → Nat → Nat} (hx : M.ntx = k) (hy : M.nty = k)
    (hn : ∀ i j, i < k → j < k → M.node i j = some (ow i j)) {i : Nat} (hi : i < k) :
    M.rowcolRanks i = some (rowcolS k ow i) := by
  unfold RMat.rowcolRanks rowcolS
  rw [rowRanks_eq hx hn hi, colRanks_eq hy hn hi]
  rfl

/-- The events of `SpMSpV`. -/
def spmspvEvs (k : Nat) (ow : Nat → Nat → Nat) (nrank op : Nat) (v : MulVecs) : List (CommEv Label) :=
  bcastNnzEvs nrank op 0 (pairsOf k (colS k ow)) ++ bcastSegEvs nrank op 0 v.x (pairsOf k (colS k ow)) ++ [.wait] ++
  reduceNnzEvs nrank op 2 (pairsOf k (rowS k ow)) ++ reduceSegEvs nrank op 2 v.y (pairsOf k (rowS k ow)) ++ [.wait]

/-- The events of `SpMSpV3`. -/
def spmspv3Evs (k : Nat) (ow : Nat → Nat → Nat) (nrank op : Nat) (v : MulVecs) : List (CommEv Label) :=
  bcastNnzEvs nrank op 0 (pairsOf k (colS k ow)) ++ bcastNnzEvs nrank op 1 (pairsOf k (rowS k ow)) ++
  bcastSegEvs nrank op 0 v.x (pairsOf k (colS k ow)) ++ bcastSegEvs nrank op 1 v.vp (pairsOf k (rowS k ow)) ++ [.wait] ++
  reduceNnzEvs nrank op 2 (pairsOf k (rowS k ow)) ++ reduceSegEvs nrank op 2 v.y (pairsOf k (rowS k ow)) ++ [.wait]

/-- The events of `ApplyEdges`. -/
def applyEdgesEvs (k : Nat) (ow : Nat → Nat → Nat) (nrank op : Nat) (vp : CommVec) : List (CommEv Label) :=
  bcastNnzEvs nrank op 1 (pairsOf k (rowcolS k ow)) ++ bcastSegEvs nrank op 1 vp (pairsOf k (rowcolS k ow)) ++ [.wait]

/-- The events of `MapReduce`. -/
def mapReduceEvs (nrank op : Nat) : List (CommEv Label) :=
  (List.range' 1 (nrank - 1)).map (fun i => .msg i 0 true ⟨op, 3, i, none⟩) ++ [.coll]

theorem viewAll_wait (r : Nat) : viewAll ([.wait] : List (CommEv L)) r = [.waitall] := rfl

theorem reduce_spec {nrank : Nat} (h : 0 < nrank) (op vec : Nat) (v : CommVec) (r : Nat) (pairs : List (Nat × Nat))
    (cs : List (Call Label)) :
    ∃ b, reduceNnz nrank op vec v r pairs (fun _ => [], cs) = some b ∧
      reduceSeg nrank op vec v r pairs b = some (fun _ => [],
        cs ++ viewAll (reduceNnzEvs nrank op vec pairs) r ++ viewAll (reduceSegEvs nrank op vec v pairs) r) := by
  refine ⟨_, reduceNnz_spec h op vec v r pairs (fun _ => []) cs, ?_⟩
  have := reduceSeg_spec h op vec v r pairs (fun _ => []) (cs ++ viewAll (reduceNnzEvs nrank op vec pairs) r)
  simp only [List.nil_append] at this
  simp only [List.append_nil]
  exact this

theorem spmspvCalls_spec {M : RMat E} {k nrank : Nat} {ow : Nat → Nat → Nat} (h : 0 < nrank) (hx : M.ntx = k)
    (hy : M.nty = k) (hn : ∀ i j, i < k → j < k → M.node i j = some (ow i j)) (op : Nat) (v : MulVecs) (r : Nat) :
    M.spmspvCalls nrank op v r (fun _ => []) = some (fun _ => [], viewAll (spmspvEvs k ow nrank op v) r) := by
  unfold RMat.spmspvCalls spmspvEvs
  simp only [Option.bind_eq_bind]
  rw [hx, hy, rankPairs_eq (fun j hj => colRanks_eq hy hn hj), Option.bind_some,
    rankPairs_eq (fun j hj => rowRanks_eq hx hn hj), Option.bind_some]
  obtain ⟨md, a1, a2, _⟩ := bcastNnz_spec h op 0 v.x r (pairsOf k (colS k ow)) (fun _ => none) []
  rw [a1, Option.bind_some, bcastSeg_spec h op 0 v.x r _ _ _ a2, Option.bind_some]
  obtain ⟨b, b1, b2⟩ := reduce_spec h op 2 v.y r (pairsOf k (rowS k ow))
    ([] ++ viewAll (bcastNnzEvs nrank op 0 (pairsOf k (colS k ow))) r ++
      viewAll (bcastSegEvs nrank op 0 v.x (pairsOf k (colS k ow))) r ++ [.waitall])
  rw [b1, Option.bind_some, b2, Option.bind_some]
  simp only [viewAll_append, viewAll_wait, List.nil_append, List.append_assoc]

theorem spmspv3Calls_spec {M : RMat E} {k nrank : Nat} {ow : Nat → Nat → Nat} (h : 0 < nrank) (hx : M.ntx = k)
    (hy : M.nty = k) (hn : ∀ i j, i < k → j < k → M.node i j = some (ow i j)) (op : Nat) (v : MulVecs) (r : Nat) :
    M.spmspv3Calls nrank op v r (fun _ => []) = some (fun _ => [], viewAll (spmspv3Evs k ow nrank op v) r) := by
  unfold RMat.spmspv3Calls spmspv3Evs
  simp only [Option.bind_eq_bind]
  rw [hx, hy, rankPairs_eq (fun j hj => colRanks_eq hy hn hj), Option.bind_some,
    rankPairs_eq (fun j hj => rowRanks_eq hx hn hj), Option.bind_some]
  obtain ⟨md, a1, a2, _⟩ := bcastNnz_spec h op 0 v.x r (pairsOf k (colS k ow)) (fun _ => none) []
  rw [a1, Option.bind_some]
  obtain ⟨md', c1, c2, _⟩ := bcastNnz_spec h op 1 v.vp r (pairsOf k (rowS k ow)) (fun _ => none)
    ([] ++ viewAll (bcastNnzEvs nrank op 0 (pairsOf k (colS k ow))) r)
  rw [c1, Option.bind_some, bcastSeg_spec h op 0 v.x r _ _ _ a2, Option.bind_some,
    bcastSeg_spec h op 1 v.vp r _ _ _ c2, Option.bind_some]
  obtain ⟨b, b1, b2⟩ := reduce_spec h op 2 v.y r (pairsOf k (rowS k ow))
    ([] ++ viewAll (bcastNnzEvs nrank op 0 (pairsOf k (colS k ow))) r ++
      viewAll (bcastNnzEvs nrank op 1 (pairsOf k (rowS k ow))) r ++
      viewAll (bcastSegEvs nrank op 0 v.x (pairsOf k (colS k ow))) r ++
      viewAll (bcastSegEvs nrank op 1 v.vp (pairsOf k (rowS k ow))) r ++ [.waitall])
  rw [b1, Option.bind_some, b2, Option.bind_some]
  simp only [viewAll_append, viewAll_wait, List.nil_append, List.append_assoc]

theorem applyEdgesCalls_spec {M : RMat E} {k nrank : Nat} {ow : Nat → Nat → Nat} (h : 0 < nrank) (hx : M.ntx = k)
    (hy : M.nty = k) (hn : ∀ i j, i < k → j < k → M.node i j = some (ow i j)) (op : Nat) (v : CommVec) (r : Nat) :
    M.applyEdgesCalls nrank op v r = some (viewAll (applyEdgesEvs k ow nrank op v) r) := by
  unfold RMat.applyEdgesCalls applyEdgesEvs
  simp only [Option.bind_eq_bind]
  rw [hx, rankPairs_eq (fun j hj => rowcolRanks_eq hx hy hn hj), Option.bind_some]
  obtain ⟨md, a1, a2, _⟩ := bcastNnz_spec h op 1 v r (pairsOf k (rowcolS k ow)) (fun _ => none) []
  rw [a1, Option.bind_some, bcastSeg_spec h op 1 v r _ _ _ a2, Option.bind_some]
  simp only [viewAll_append, viewAll_wait, List.nil_append]

theorem mapReduceCalls_spec (nrank op r : Nat) : mapReduceCalls nrank op r = viewAll (mapReduceEvs nrank op) r := by
  unfold mapReduceCalls mapReduceEvs
  rw [viewAll_append]
  congr 1
  have hpos : ∀ i ∈ List.range' 1 (nrank - 1), i ≠ 0 := by
    intro i hi
    rw [List.mem_range'_1] at hi
    omega
  generalize List.range' 1 (nrank - 1) = l at hpos ⊢
  by_cases hr : r = 0
  · subst hr
    induction l with
    | nil => rfl
    | cons i l ih =>
      have hi := hpos i List.mem_cons_self
      have ih := ih (fun j hj => hpos j (List.mem_cons_of_mem _ hj))
      have e1 : ∀ l : List Nat, (∀ j ∈ l, j ≠ 0) →
          l.flatMap (fun i => if 0 = i then [Call.send 0 (⟨op, 3, i, none⟩ : Label)] else []) = [] := by
        intro l hl
        rw [List.flatMap_eq_nil_iff]
        intro j hj
        rw [if_neg (fun h => hl j hj h.symm)]
      rw [e1 _ (fun j hj => hpos j (List.mem_cons_of_mem _ hj)), List.nil_append] at ih
      rw [e1 _ hpos, List.nil_append, List.flatMap_cons, ih]
      unfold viewAll
      rw [List.map_cons, List.flatMap_cons]
      congr 1
      simp [CommEv.view]
      exact fun h => hi h.symm
  · have e1 : l.flatMap (fun i => if r = 0 then [Call.recv i (⟨op, 3, i, none⟩ : Label)] else []) = [] := by
      rw [List.flatMap_eq_nil_iff]
      intro j hj
      rw [if_neg hr]
    rw [e1, List.append_nil]
    unfold viewAll
    rw [List.flatMap_map]
    congr 1
    funext i
    simp [CommEv.view, hr]

/-- All ranks send to all ranks, and receive from all. -/
def allToAll (nrank op vec : Nat) (f : Nat → Nat → Option Nat) : CommEv Label :=
  .post (fun r => if r < nrank then
    (List.range nrank).map (fun i => .isend i ⟨op, vec, r, f r i⟩) ++
    (List.range nrank).map (fun i => .irecv i ⟨op, vec, i, f i r⟩) else [])

/-- The events when edges are exchanged. -/
def exchangeEvs (nrank op : Nat) (cnt : Nat → Nat → Nat) : List (CommEv Label) :=
  [allToAll nrank op 4 (fun _ _ => none), .wait, .coll, allToAll nrank op 5 (fun a b => some (cnt a b)), .wait]

/-- The events of `SpMat::ingestEdgelist`. -/
def ingestMatEvs (nrank op : Nat) (cnt : Nat → Nat → Nat) : List (CommEv Label) :=
  (if nrank = 1 then [] else [.coll] ++ exchangeEvs nrank op cnt ++ [.coll]) ++ [.coll]

/-- The events of `shuffle_edges`. -/
def shuffleEvs (nrank op : Nat) (cnt : Nat → Nat → Nat) : List (CommEv Label) :=
  [.coll] ++ exchangeEvs nrank op cnt ++ [.coll]

theorem exchangeCalls_spec {nrank r : Nat} (hr : r < nrank) (op : Nat) (cnt : Nat → Nat → Nat) :
    exchangeCalls nrank op cnt r = viewAll (exchangeEvs nrank op cnt) r := by
  simp [exchangeCalls, exchangeEvs, viewAll, allToAll, CommEv.view, hr]

theorem shuffleCalls_spec {nrank r : Nat} (hr : r < nrank) (op : Nat) (cnt : Nat → Nat → Nat) :
    shuffleCalls nrank op cnt r = viewAll (shuffleEvs nrank op cnt) r := by
  unfold shuffleCalls shuffleEvs
  rw [exchangeCalls_spec hr, viewAll_append, viewAll_append]
  rfl

theorem ingestVecCalls_spec {nrank r : Nat} (hr : r < nrank) (op : Nat) (cnt : Nat → Nat → Nat) :
    ingestVecCalls nrank op cnt r = viewAll ([.coll] ++ exchangeEvs nrank op cnt ++ [.coll, .coll]) r := by
  unfold ingestVecCalls
  rw [exchangeCalls_spec hr, viewAll_append, viewAll_append]
  rfl

theorem ingestMatCalls_spec {nrank r : Nat} (hr : r < nrank) (op : Nat) (cnt : Nat → Nat → Nat) :
    ingestMatCalls nrank op cnt r = viewAll (ingestMatEvs nrank op cnt) r := by
  unfold ingestMatCalls ingestMatEvs
  rw [exchangeCalls_spec hr, viewAll_append]
  split
  · rfl
  · rw [viewAll_append, viewAll_append]; rfl

/-- The events of an operation. -/
def CommOp.evs (k : Nat) (owA owT : Nat → Nat → Nat) (nrank : Nat) (v : Nat → MulVecs) (t : Nat) :
    CommOp → List (CommEv Label)
  | .superstep out in_ vprop =>
    (if out then (if vprop then spmspv3Evs k owT nrank (2 * t) (v (2 * t)) else spmspvEvs k owT nrank (2 * t) (v (2 * t)))
      else []) ++
    (if in_ then (if vprop then spmspv3Evs k owA nrank (2 * t + 1) (v (2 * t + 1))
      else spmspvEvs k owA nrank (2 * t + 1) (v (2 * t + 1))) else []) ++ [.coll]
  | .applyEdges => applyEdgesEvs k owT nrank (2 * t) (v (2 * t)).vp ++ applyEdgesEvs k owA nrank (2 * t + 1) (v (2 * t + 1)).vp
  | .mapReduce => mapReduceEvs nrank (2 * t)
  | .readEdgelist cnt cntT => ingestMatEvs nrank (2 * t) cnt ++ ingestMatEvs nrank (2 * t + 1) cntT ++ [.coll]
  | .readBin => [.coll, .coll]
  | .writeBin => [.coll]
  | .saveVertexproperty cnt => [.coll] ++ exchangeEvs nrank (2 * t) cnt ++ [.coll, .coll]
  | .getNNZ => [.coll]
  | .loadEdgelist => [.coll, .coll]
  | .shuffle cnt => shuffleEvs nrank (2 * t) cnt
  | .removeDuplicates cnt => if nrank = 1 then [] else shuffleEvs nrank (2 * t) cnt
  | .randomize => [.coll]

/-- The events of a sequence of operations. -/
def commEvs (k : Nat) (owA owT : Nat → Nat → Nat) (nrank : Nat) (v : Nat → MulVecs) :
    List CommOp → Nat → List (CommEv Label)
  | [], _ => []
  | op :: ops, t => op.evs k owA owT nrank v t ++ commEvs k owA owT nrank v ops (t + 1)

theorem mulCalls_spec {M : RMat E} {k nrank : Nat} {ow : Nat → Nat → Nat} (h : 0 < nrank) (hx : M.ntx = k)
    (hy : M.nty = k) (hn : ∀ i j, i < k → j < k → M.node i j = some (ow i j)) (vprop : Bool) (op : Nat) (v : MulVecs)
    (r : Nat) :
    M.mulCalls vprop nrank op v r (fun _ => []) =
      some (fun _ => [], viewAll (if vprop then spmspv3Evs k ow nrank op v else spmspvEvs k ow nrank op v) r) := by
  unfold RMat.mulCalls
  cases vprop
  · exact spmspvCalls_spec h hx hy hn op v r
  · exact spmspv3Calls_spec h hx hy hn op v r

theorem CommOp.calls_spec {A AT : RMat E} {k nrank : Nat} {owA owT : Nat → Nat → Nat} (h : 0 < nrank)
    (hx : A.ntx = k) (hy : A.nty = k) (hn : ∀ i j, i < k → j < k → A.node i j = some (owA i j))
    (hx' : AT.ntx = k) (hy' : AT.nty = k) (hn' : ∀ i j, i < k → j < k → AT.node i j = some (owT i j))
    (v : Nat → MulVecs) {r : Nat} (hr : r < nrank) (t : Nat) (op : CommOp) :
    op.calls A AT nrank r v t (fun _ => []) = some (fun _ => [], viewAll (op.evs k owA owT nrank v t) r) := by
  cases op with
  | mapReduce =>
    show some (_, mapReduceCalls nrank (2 * t) r) = _
    rw [mapReduceCalls_spec]; rfl
  | readEdgelist cnt cntT =>
    show some (_, _ ++ _ ++ _) = _
    rw [ingestMatCalls_spec hr, ingestMatCalls_spec hr]
    simp only [CommOp.evs, viewAll_append]
    rfl
  | readBin => rfl
  | writeBin => rfl
  | getNNZ => rfl
  | loadEdgelist => rfl
  | randomize => rfl
  | saveVertexproperty cnt =>
    show some (_, ingestVecCalls nrank _ cnt r) = _
    rw [ingestVecCalls_spec hr]; rfl
  | shuffle cnt =>
    show some (_, shuffleCalls nrank _ cnt r) = _
    rw [shuffleCalls_spec hr]; rfl
  | removeDuplicates cnt =>
    show some (_, if nrank = 1 then [] else shuffleCalls nrank _ cnt r) = some (_, viewAll (if nrank = 1 then [] else _) r)
    rw [shuffleCalls_spec hr]
    split <;> rfl
  | applyEdges =>
    simp only [CommOp.calls, CommOp.evs, Option.bind_eq_bind]
    rw [applyEdgesCalls_spec h hx' hy' hn', Option.bind_some, applyEdgesCalls_spec h hx hy hn, Option.bind_some,
      viewAll_append]
  | superstep o i vprop =>
    simp only [CommOp.calls, CommOp.evs, Option.bind_eq_bind]
    cases o <;> cases i <;>
      simp [mulCalls_spec h hx hy hn, mulCalls_spec h hx' hy' hn', viewAll_append] <;> rfl

theorem commCalls_spec {A AT : RMat E} {k nrank : Nat} {owA owT : Nat → Nat → Nat} (h : 0 < nrank)
    (hx : A.ntx = k) (hy : A.nty = k) (hn : ∀ i j, i < k → j < k → A.node i j = some (owA i j))
    (hx' : AT.ntx = k) (hy' : AT.nty = k) (hn' : ∀ i j, i < k → j < k → AT.node i j = some (owT i j))
    (v : Nat → MulVecs) {r : Nat} (hr : r < nrank) (ops : List CommOp) (t : Nat) :
    commCalls A AT nrank r v ops t (fun _ => []) = some (viewAll (commEvs k owA owT nrank v ops t) r) := by
  induction ops generalizing t with
  | nil => rfl
  | cons op ops ih =>
    simp only [commCalls, commEvs, Option.bind_eq_bind]
    rw [CommOp.calls_spec h hx hy hn hx' hy' hn' v hr, Option.bind_some, ih, Option.bind_some, viewAll_append]

/-! ### Messages go between different existing ranks -/

theorem bcastNnzEvs_ok {nrank : Nat} (h : 0 < nrank) (op vec : Nat) {pairs : List (Nat × Nat)}
    (hp : ∀ jr ∈ pairs, jr.2 < nrank) : ∀ e ∈ bcastNnzEvs nrank op vec pairs, e.Ok nrank := by
  intro e he
  unfold bcastNnzEvs at he
  rw [List.mem_flatMap] at he
  obtain ⟨jr, h1, h2⟩ := he
  split at h2
  · cases h2
  · rename_i hne
    rw [List.mem_singleton] at h2
    subst h2
    exact ⟨hne, Nat.mod_lt _ h, hp jr h1⟩

theorem bcastSegEvs_ok {nrank : Nat} (h : 0 < nrank) (op vec : Nat) (v : CommVec) {pairs : List (Nat × Nat)}
    (hp : ∀ jr ∈ pairs, jr.2 < nrank) : ∀ e ∈ bcastSegEvs nrank op vec v pairs, e.Ok nrank := by
  intro e he
  unfold bcastSegEvs at he
  rw [List.mem_flatMap] at he
  obtain ⟨jr, h1, h2⟩ := he
  split at h2
  · cases h2
  · rename_i hne
    rw [List.mem_map] at h2
    obtain ⟨k, _, rfl⟩ := h2
    exact ⟨hne, Nat.mod_lt _ h, hp jr h1⟩

theorem reduceNnzEvs_ok {nrank : Nat} (h : 0 < nrank) (op vec : Nat) {pairs : List (Nat × Nat)}
    (hp : ∀ jr ∈ pairs, jr.2 < nrank) : ∀ e ∈ reduceNnzEvs nrank op vec pairs, e.Ok nrank := by
  intro e he
  unfold reduceNnzEvs at he
  rw [List.mem_flatMap] at he
  obtain ⟨jr, h1, h2⟩ := he
  split at h2
  · cases h2
  · rename_i hne
    rw [List.mem_singleton] at h2
    subst h2
    exact ⟨fun h => hne h.symm, hp jr h1, Nat.mod_lt _ h⟩

theorem reduceSegEvs_ok {nrank : Nat} (h : 0 < nrank) (op vec : Nat) (v : CommVec) {pairs : List (Nat × Nat)}
    (hp : ∀ jr ∈ pairs, jr.2 < nrank) : ∀ e ∈ reduceSegEvs nrank op vec v pairs, e.Ok nrank := by
  intro e he
  unfold reduceSegEvs at he
  rw [List.mem_flatMap] at he
  obtain ⟨jr, h1, h2⟩ := he
  split at h2
  · cases h2
  · rename_i hne
    rw [List.mem_map] at h2
    obtain ⟨k, _, rfl⟩ := h2
    exact ⟨fun h => hne h.symm, hp jr h1, Nat.mod_lt _ h⟩

theorem colPairs_lt {k nrank : Nat} {ow : Nat → Nat → Nat} (how : ∀ i j, i < k → j < k → ow i j < nrank) :
    ∀ jr ∈ pairsOf k (colS k ow), jr.2 < nrank := by
  intro jr hjr
  obtain ⟨h1, h2⟩ := mem_pairsOf.mp hjr
  unfold colS at h2
  rw [(rankSet_spec _).2, List.mem_map] at h2
  obtain ⟨i, h3, h4⟩ := h2
  rw [← h4]
  exact how i _ (List.mem_range.mp h3) h1

theorem rowPairs_lt {k nrank : Nat} {ow : Nat → Nat → Nat} (how : ∀ i j, i < k → j < k → ow i j < nrank) :
    ∀ jr ∈ pairsOf k (rowS k ow), jr.2 < nrank := by
  intro jr hjr
  obtain ⟨h1, h2⟩ := mem_pairsOf.mp hjr
  unfold rowS at h2
  rw [(rankSet_spec _).2, List.mem_map] at h2
  obtain ⟨i, h3, h4⟩ := h2
  rw [← h4]
  exact how _ i h1 (List.mem_range.mp h3)

theorem rowcolPairs_lt {k nrank : Nat} {ow : Nat → Nat → Nat} (how : ∀ i j, i < k → j < k → ow i j < nrank) :
    ∀ jr ∈ pairsOf k (rowcolS k ow), jr.2 < nrank := by
  intro jr hjr
  obtain ⟨h1, h2⟩ := mem_pairsOf.mp hjr
  unfold rowcolS at h2
  rw [(rankSet_spec _).2, List.mem_append] at h2
  rcases h2 with h2 | h2
  · exact rowPairs_lt how jr (mem_pairsOf.mpr ⟨h1, h2⟩)
  · exact colPairs_lt how jr (mem_pairsOf.mpr ⟨h1, h2⟩)

theorem range_pick {α : Type} (n b : Nat) (g : Nat → α) :
    (List.range n).filterMap (fun i => if i = b then some (g i) else none) = if b < n then [g b] else [] := by
  induction n with
  | zero => simp
  | succ n ih =>
    rw [List.range_succ, List.filterMap_append, ih]
    by_cases hb : n = b
    · subst hb; simp
    · by_cases h2 : b < n
      · rw [if_pos h2, if_pos (by omega)]; simp [hb]
      · rw [if_neg h2, if_neg (by omega)]; simp [hb]

theorem allToAll_ok (nrank op vec : Nat) (f : Nat → Nat → Option Nat) : (allToAll nrank op vec f).Ok nrank := by
  refine ⟨fun r x hx => ?_, fun a b => ?_⟩
  · beta_reduce at hx
    split at hx
    · rw [List.mem_append, List.mem_map, List.mem_map] at hx
      rcases hx with ⟨i, hi, rfl⟩ | ⟨i, hi, rfl⟩ <;> exact ⟨trivial, List.mem_range.mp hi⟩
    · cases hx
  · have h1 : ∀ r d, ((List.range nrank).map (fun i => (Call.isend i ⟨op, vec, r, f r i⟩ : Call Label)) ++
        (List.range nrank).map (fun i => (Call.irecv i ⟨op, vec, i, f i r⟩ : Call Label))).filterMap (Call.sentTo d) =
        if d < nrank then [⟨op, vec, r, f r d⟩] else [] := by
      intro r d
      rw [List.filterMap_append, List.filterMap_map, List.filterMap_map, ← range_pick nrank d (fun i => (⟨op, vec, r, f r i⟩ : Label))]
      have : (List.range nrank).filterMap (Call.sentTo d ∘ fun i => (Call.irecv i ⟨op, vec, i, f i r⟩ : Call Label)) = [] := by
        rw [List.filterMap_eq_nil_iff]; intro i _; rfl
      rw [this, List.append_nil]
      rfl
    have h2 : ∀ r d, ((List.range nrank).map (fun i => (Call.isend i ⟨op, vec, r, f r i⟩ : Call Label)) ++
        (List.range nrank).map (fun i => (Call.irecv i ⟨op, vec, i, f i r⟩ : Call Label))).filterMap (Call.recvFrom d) =
        if d < nrank then [⟨op, vec, d, f d r⟩] else [] := by
      intro r d
      rw [List.filterMap_append, List.filterMap_map, List.filterMap_map, ← range_pick nrank d (fun i => (⟨op, vec, i, f i r⟩ : Label))]
      have : (List.range nrank).filterMap (Call.recvFrom d ∘ fun i => (Call.isend i ⟨op, vec, r, f r i⟩ : Call Label)) = [] := by
        rw [List.filterMap_eq_nil_iff]; intro i _; rfl
      rw [this, List.nil_append]
      rfl
    beta_reduce
    by_cases ha : a < nrank
    · by_cases hb : b < nrank
      · rw [if_pos ha, if_pos hb, h1, h2, if_pos ha, if_pos hb]
      · rw [if_pos ha, if_neg hb, h1, if_neg hb]; rfl
    · by_cases hb : b < nrank
      · rw [if_neg ha, if_pos hb, h2, if_neg ha]; rfl
      · rw [if_neg ha, if_neg hb]; rfl

theorem exchangeEvs_ok (nrank op : Nat) (cnt : Nat → Nat → Nat) : ∀ e ∈ exchangeEvs nrank op cnt, e.Ok nrank := by
  intro e he
  simp only [exchangeEvs, List.mem_cons, List.not_mem_nil, or_false] at he
  rcases he with rfl | rfl | rfl | rfl | rfl
  · exact allToAll_ok ..
  · trivial
  · trivial
  · exact allToAll_ok ..
  · trivial

theorem shuffleEvs_ok (nrank op : Nat) (cnt : Nat → Nat → Nat) : ∀ e ∈ shuffleEvs nrank op cnt, e.Ok nrank := by
  intro e he
  simp only [shuffleEvs, List.mem_append, List.mem_singleton] at he
  rcases he with (rfl | he) | rfl
  · trivial
  · exact exchangeEvs_ok _ _ _ e he
  · trivial

theorem ingestMatEvs_ok (nrank op : Nat) (cnt : Nat → Nat → Nat) : ∀ e ∈ ingestMatEvs nrank op cnt, e.Ok nrank := by
  intro e he
  unfold ingestMatEvs at he
  rw [List.mem_append, List.mem_singleton] at he
  rcases he with he | rfl
  · split at he
    · cases he
    · exact shuffleEvs_ok _ _ _ e he
  · trivial

theorem colls_ok {nrank : Nat} {G : List (CommEv L)} (h : ∀ e ∈ G, e = .coll) : ∀ e ∈ G, e.Ok nrank := by
  intro e he
  rw [h e he]; trivial

theorem commEvs_ok {k nrank : Nat} {owA owT : Nat → Nat → Nat} (h : 0 < nrank)
    (hA : ∀ i j, i < k → j < k → owA i j < nrank) (hT : ∀ i j, i < k → j < k → owT i j < nrank)
    (v : Nat → MulVecs) (ops : List CommOp) (t : Nat) : ∀ e ∈ commEvs k owA owT nrank v ops t, e.Ok nrank := by
  have hm : ∀ ow : Nat → Nat → Nat, (∀ i j, i < k → j < k → ow i j < nrank) → ∀ op v, ∀ e ∈ spmspvEvs k ow nrank op v,
      e.Ok nrank := by
    intro ow how op v e he
    simp only [spmspvEvs, List.mem_append, List.mem_singleton] at he
    rcases he with (((((he | he) | he) | he) | he) | he)
    · exact bcastNnzEvs_ok h _ _ (colPairs_lt how) e he
    · exact bcastSegEvs_ok h _ _ _ (colPairs_lt how) e he
    · subst he; trivial
    · exact reduceNnzEvs_ok h _ _ (rowPairs_lt how) e he
    · exact reduceSegEvs_ok h _ _ _ (rowPairs_lt how) e he
    · subst he; trivial
  have hm3 : ∀ ow : Nat → Nat → Nat, (∀ i j, i < k → j < k → ow i j < nrank) → ∀ op v, ∀ e ∈ spmspv3Evs k ow nrank op v,
      e.Ok nrank := by
    intro ow how op v e he
    simp only [spmspv3Evs, List.mem_append, List.mem_singleton] at he
    rcases he with (((((((he | he) | he) | he) | he) | he) | he) | he)
    · exact bcastNnzEvs_ok h _ _ (colPairs_lt how) e he
    · exact bcastNnzEvs_ok h _ _ (rowPairs_lt how) e he
    · exact bcastSegEvs_ok h _ _ _ (colPairs_lt how) e he
    · exact bcastSegEvs_ok h _ _ _ (rowPairs_lt how) e he
    · subst he; trivial
    · exact reduceNnzEvs_ok h _ _ (rowPairs_lt how) e he
    · exact reduceSegEvs_ok h _ _ _ (rowPairs_lt how) e he
    · subst he; trivial
  have hae : ∀ ow : Nat → Nat → Nat, (∀ i j, i < k → j < k → ow i j < nrank) → ∀ op v, ∀ e ∈ applyEdgesEvs k ow nrank op v,
      e.Ok nrank := by
    intro ow how op v e he
    simp only [applyEdgesEvs, List.mem_append, List.mem_singleton] at he
    rcases he with ((he | he) | he)
    · exact bcastNnzEvs_ok h _ _ (rowcolPairs_lt how) e he
    · exact bcastSegEvs_ok h _ _ _ (rowcolPairs_lt how) e he
    · subst he; trivial
  have hif : ∀ (b : Bool) (l : List (CommEv Label)), (∀ e ∈ l, e.Ok nrank) → ∀ e ∈ (if b then l else []), e.Ok nrank := by
    intro b l hl e he
    cases b
    · cases he
    · exact hl e he
  have hif2 : ∀ (b : Bool) (l l' : List (CommEv Label)), (∀ e ∈ l, e.Ok nrank) → (∀ e ∈ l', e.Ok nrank) →
      ∀ e ∈ (if b then l else l'), e.Ok nrank := by
    intro b l l' hl hl' e he
    cases b
    · exact hl' e he
    · exact hl e he
  induction ops generalizing t with
  | nil => intro e he; cases he
  | cons op ops ih =>
    intro e he
    unfold commEvs at he
    rw [List.mem_append] at he
    rcases he with he | he
    · cases op with
      | superstep o i vprop =>
        simp only [CommOp.evs, List.mem_append, List.mem_singleton] at he
        rcases he with ((he | he) | he)
        · exact hif _ _ (hif2 _ _ _ (hm3 owT hT _ _) (hm owT hT _ _)) e he
        · exact hif _ _ (hif2 _ _ _ (hm3 owA hA _ _) (hm owA hA _ _)) e he
        · subst he; trivial
      | applyEdges =>
        simp only [CommOp.evs, List.mem_append] at he
        rcases he with he | he
        · exact hae owT hT _ _ e he
        · exact hae owA hA _ _ e he
      | mapReduce =>
        simp only [CommOp.evs, mapReduceEvs, List.mem_append, List.mem_singleton, List.mem_map] at he
        rcases he with ⟨i, hi, rfl⟩ | he
        · rw [List.mem_range'_1] at hi
          exact ⟨by omega, by omega, h⟩
        · subst he; trivial
      | readEdgelist cnt cntT =>
        simp only [CommOp.evs, List.mem_append, List.mem_singleton] at he
        rcases he with (he | he) | rfl
        · exact ingestMatEvs_ok _ _ _ e he
        · exact ingestMatEvs_ok _ _ _ e he
        · trivial
      | readBin => exact colls_ok (by simp [CommOp.evs]) e he
      | writeBin => exact colls_ok (by simp [CommOp.evs]) e he
      | getNNZ => exact colls_ok (by simp [CommOp.evs]) e he
      | loadEdgelist => exact colls_ok (by simp [CommOp.evs]) e he
      | randomize => exact colls_ok (by simp [CommOp.evs]) e he
      | saveVertexproperty cnt =>
        simp only [CommOp.evs, List.mem_append, List.mem_cons, List.not_mem_nil, or_false] at he
        rcases he with (rfl | he) | (rfl | rfl)
        · trivial
        · exact exchangeEvs_ok _ _ _ e he
        · trivial
        · trivial
      | shuffle cnt => exact shuffleEvs_ok _ _ _ e he
      | removeDuplicates cnt =>
        simp only [CommOp.evs] at he
        split at he
        · cases he
        · exact shuffleEvs_ok _ _ _ e he
    · exact ih (t + 1) e he

end GraphMat
