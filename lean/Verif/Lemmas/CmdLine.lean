import Verif.Model.CmdLine
import Verif.Spec.CmdLine
import Verif.Lemmas.EdgeFileFmt

/-! Lemmas for `Verif.Props.CmdLine`. -/
namespace GraphMat

theorem digitIn_digitChar {d : Nat} (h : d < 10) : digitIn 10 (digitChar d) = some d := by
  have : ∀ d : Fin 10, digitIn 10 (digitChar d.1) = some d.1 := by decide
  exact this ⟨d, h⟩

theorem digitsIn_ok : ∀ (ds : List Nat) (acc : Nat), (∀ d, d ∈ ds → d < 10) →
    digitsIn 10 (ds.map digitChar) acc = ds.foldl (fun acc d => 10 * acc + d) acc := by
  intro ds
  induction ds with
  | nil => intro acc _; rfl
  | cons d ds ih =>
    intro acc h
    simp only [List.map_cons, digitsIn, digitIn_digitChar (h d (by simp))]
    rw [ih _ (fun x hx => h x (by simp [hx]))]
    rfl

theorem digitChar_zero {d : Nat} (h : d < 10) (h0 : digitChar d = '0') : d = 0 := by
  have : ∀ d : Fin 10, digitChar d.1 = '0' → d.1 = 0 := by decide
  exact this ⟨d, h⟩ h0

theorem scanBase_ok {ds : List Nat} (hne : ds ≠ []) (hd : ∀ d, d ∈ ds → d < 10) (hz : ds = [0] ∨ ds.head? ≠ some 0) :
    scanBase (ds.map digitChar) = some (some (digitsValue ds)) := by
  cases ds with
  | nil => exact absurd rfl hne
  | cons d ds =>
    rcases hz with hz | hz
    · rw [hz]; decide
    · have h0 : digitChar d ≠ '0' := fun h => hz (by rw [digitChar_zero (hd d (by simp)) h]; rfl)
      have h1 := digitsIn_ok (d :: ds) 0 hd
      rw [List.map_cons] at h1 ⊢
      unfold scanBase
      split
      · rename_i heq; exact absurd (List.cons.inj heq).1 h0
      · rename_i c cs _ heq
        obtain ⟨rfl, rfl⟩ := List.cons.inj heq
        rw [digitIn_digitChar (hd d (by simp)), h1]
        rfl
      · rename_i heq; cases heq

theorem Spells.solid {x : Int} {w : List Char} (h : Spells x w) : ∃ c k, w = c :: k ∧ isSpace c = false := by
  obtain ⟨ds, hne, hd, _, h⟩ := h
  cases ds with
  | nil => exact absurd rfl hne
  | cons d ds =>
    rcases h with ⟨rfl, _⟩ | ⟨rfl, _⟩ | ⟨rfl, _⟩
    · exact ⟨_, _, rfl, (digitChar_ne (hd d (by simp))).2.2⟩
    · exact ⟨_, _, rfl, by decide⟩
    · exact ⟨_, _, rfl, by decide⟩

theorem scanAuto_eq {x : Int} {w : List Char} (h : Spells x w) :
    scanAuto w = if INT_MIN ≤ x ∧ x ≤ INT_MAX then some (some x) else none := by
  have hw : w.dropWhile isSpace = w := by
    obtain ⟨c, k, rfl, hc⟩ := h.solid
    rw [List.dropWhile_cons, if_neg (by rw [hc]; decide)]
  obtain ⟨ds, hne, hd, hz, h⟩ := h
  have hb := scanBase_ok hne hd hz
  unfold scanAuto
  rw [hw]
  rcases h with ⟨rfl, rfl⟩ | ⟨rfl, rfl⟩ | ⟨rfl, rfl⟩
  · cases ds with
    | nil => exact absurd rfl hne
    | cons d ds =>
      have hn := digitChar_ne (hd d (by simp))
      rw [List.map_cons] at hb ⊢
      split
      · rename_i heq; exact absurd (List.cons.inj heq).1 hn.1
      · rename_i heq; exact absurd (List.cons.inj heq).1 hn.2.1
      · simp only [hb, Option.map_some]
  · simp only [hb, Option.map_some]
  · simp only [hb, Option.map_some]

theorem scanAuto_ok {x : Int} {w : List Char} (h : Spells x w) (hx : IsInt32 x) : scanAuto w = some (some x) := by
  have hx' : INT_MIN ≤ x ∧ x ≤ INT_MAX := hx
  rw [scanAuto_eq h, if_pos hx']

theorem scanAuto_none {c : Char} {w : List Char} (hc : isSpace c = false ∧ c ≠ '+' ∧ c ≠ '-' ∧ digitIn 10 c = none) :
    scanAuto (c :: w) = some none := by
  obtain ⟨h1, h2, h3, h4⟩ := hc
  have h0 : c ≠ '0' := fun h => by rw [h] at h4; exact absurd h4 (by decide)
  have hb : scanBase (c :: w) = some none := by
    unfold scanBase
    split
    · rename_i heq; exact absurd (List.cons.inj heq).1 h0
    · rename_i heq
      obtain ⟨rfl, rfl⟩ := List.cons.inj heq
      rw [h4]; rfl
    · rename_i heq; cases heq
  unfold scanAuto
  rw [List.dropWhile_cons, if_neg (by rw [h1]; decide)]
  split
  · rename_i h; exact absurd (List.cons.inj h).1 h3
  · rename_i h; exact absurd (List.cons.inj h).1 h2
  · rw [hb]; rfl

/-! ### The options -/

theorem findLong (s : Setting) : ∃ o, longOptions.find? (fun o => o.name = s.name) = some o ∧
    (s.number = none → o.arg = false ∧ ∀ a, o.event a = .stored s) ∧
    (∀ x, s.number = some x → o.arg = true ∧ ∃ c, c ≠ 'h' ∧ letterSetting c x = some s ∧ ∀ a, o.event a = .letter c a) := by
  cases s
  case uppertriangular => exact ⟨_, rfl, fun _ => ⟨rfl, fun _ => rfl⟩, fun _ h => nomatch h⟩
  case bidirectional => exact ⟨_, rfl, fun _ => ⟨rfl, fun _ => rfl⟩, fun _ h => nomatch h⟩
  case randomizeID => exact ⟨_, rfl, fun _ => ⟨rfl, fun _ => rfl⟩, fun _ h => nomatch h⟩
  all_goals
    refine ⟨_, rfl, (fun h => nomatch h), fun x h => ⟨rfl, ?_⟩⟩
    obtain rfl := Option.some.inj h
    exact ⟨_, by decide, rfl, fun _ => rfl⟩

theorem name_takeWhile (s : Setting) (v : List Char) :
    (s.name ++ '=' :: v).takeWhile (fun c => decide (c ≠ '=')) = s.name ∧
    s.name.takeWhile (fun c => decide (c ≠ '=')) = s.name := by
  cases s <;> exact ⟨rfl, rfl⟩

theorem letter_ok {s : Setting} {c : Char} (h : s.letter = some c) :
    c ≠ '-' ∧ c ≠ ':' ∧ c ≠ ';' ∧ c ≠ 'h' ∧ findLetter c shortOptions = some true ∧
      ∀ x, s.number = some x → letterSetting c x = some s := by
  cases s
  case uppertriangular => exact nomatch h
  case bidirectional => exact nomatch h
  case randomizeID => exact nomatch h
  case split => exact nomatch h
  all_goals
    obtain rfl := Option.some.inj h
    refine ⟨by decide, by decide, by decide, by decide, rfl, fun x hx => ?_⟩
    obtain rfl := Option.some.inj hx
    rfl

theorem findLetter_none {c : Char} {l : List Char} (h : c ∉ l) : findLetter c l = none := by
  induction l using findLetter.induct c with
  | case1 => rfl
  | case2 => exact absurd List.mem_cons_self h
  | case3 x hx => simp [findLetter, hx]
  | case4 => exact absurd List.mem_cons_self h
  | case5 x l hx ih => rw [findLetter, if_pos rfl, if_neg hx]; exact ih (fun h' => h (by simp [h']))
  | case6 => exact absurd List.mem_cons_self h
  | case7 x y l hy hx ih => rw [findLetter, if_neg hy, if_neg hx]; exact ih (fun h' => h (List.mem_cons_of_mem _ h'))

/-- What the calls of `getopt_long` report for one part, as far as the option loop is concerned. -/
def Reports (evs : List OptEvent) (s : Setting) : Prop :=
  ∀ l o, optionLoop (evs ++ l) o = optionLoop l (s.store o)

theorem reports_letter {c : Char} {x : Int} {w : List Char} {s : Setting} (hc : c ≠ 'h') (h : letterSetting c x = some s)
    (hw : Spells x w) (hx : IsInt32 x) : Reports [.letter c (some w)] s := by
  intro l o
  simp [optionLoop, hc, storeLetter, scanAuto_ok hw hx, h]

theorem reports_stored (s : Setting) : Reports [.stored s] s := fun _ _ => rfl

theorem getoptAll_long (w : List Char) (hw : w ≠ []) (rest : List (List Char)) (e : OptEvent)
    (h : ∀ next, longEvent next w = (e, false)) :
    getoptAll (('-' :: '-' :: w) :: rest) = (e :: (getoptAll rest).1, (getoptAll rest).2) := by
  cases w with
  | nil => exact absurd rfl hw
  | cons a w =>
    cases rest with
    | nil => simp [getoptAll, h]
    | cons b rest => rw [getoptAll]; simp [h]

theorem getoptAll_long_arg (w v : List Char) (hw : w ≠ []) (rest : List (List Char)) (e : OptEvent)
    (h : longEvent (some v) w = (e, true)) :
    getoptAll (('-' :: '-' :: w) :: v :: rest) = (e :: (getoptAll rest).1, (getoptAll rest).2) := by
  cases w with
  | nil => exact absurd rfl hw
  | cons a w => rw [getoptAll]; simp [h]

theorem getoptAll_short (c : Char) (w : List Char) (rest : List (List Char)) (e : List OptEvent) (hc : c ≠ '-')
    (h : ∀ next, clusterEvents next (c :: w) = (e, false)) :
    getoptAll (('-' :: c :: w) :: rest) = (e ++ (getoptAll rest).1, (getoptAll rest).2) := by
  cases rest with
  | nil => simp [getoptAll, h, hc]
  | cons b rest =>
    rw [getoptAll]
    · simp [h, hc]
    · exact hc

theorem getoptAll_short_arg (c : Char) (w v : List Char) (rest : List (List Char)) (e : List OptEvent) (hc : c ≠ '-')
    (h : clusterEvents (some v) (c :: w) = (e, true)) :
    getoptAll (('-' :: c :: w) :: v :: rest) = (e ++ (getoptAll rest).1, (getoptAll rest).2) := by
  rw [getoptAll]
  · simp [h, hc]
  · exact hc

theorem getoptAll_file (f : List Char) (rest : List (List Char)) (hf : f.head? ≠ some '-') :
    getoptAll (f :: rest) = ((getoptAll rest).1, f :: (getoptAll rest).2) := by
  cases f with
  | nil =>
    rw [getoptAll]
    · simp
    · intro _ h; cases h
    · intro _ _ h; cases h
  | cons c f =>
    have hc : c ≠ '-' := fun h => hf (by rw [h]; rfl)
    rw [getoptAll]
    · simp [hc]
    · intro _ h; exact hc (List.cons.inj h).1
    · intro _ _ h; exact hc (List.cons.inj h).1

theorem name_ne (s : Setting) : s.name ≠ [] := by cases s <;> exact List.cons_ne_nil _ _

theorem getoptAll_valued {s : Setting} {x : Int} {w : List Char} (hs : s.number = some x) (rest : List (List Char)) :
    ∃ c, c ≠ 'h' ∧ letterSetting c x = some s ∧
      getoptAll (('-' :: '-' :: s.name) :: w :: rest) = (.letter c (some w) :: (getoptAll rest).1, (getoptAll rest).2) := by
  obtain ⟨o, h1, _, h2⟩ := findLong s
  obtain ⟨h3, c, hc, hl, h4⟩ := h2 x hs
  refine ⟨c, hc, hl, getoptAll_long_arg s.name w (name_ne _) rest _ ?_⟩
  unfold longEvent
  simp only [(name_takeWhile s []).2, h1, List.drop_length, h3, h4]
  rfl

theorem getoptAll_item {it : Item} (hg : it.Good) {s : Setting} (hs : it.setting? = some s) (rest : List (List Char)) :
    ∃ evs, Reports evs s ∧ getoptAll (it.words ++ rest) = (evs ++ (getoptAll rest).1, (getoptAll rest).2) := by
  cases it with
  | flag s' =>
    obtain rfl := Option.some.inj hs
    obtain ⟨o, h1, h2, _⟩ := findLong s'
    obtain ⟨h3, h4⟩ := h2 hg
    refine ⟨[.stored s'], reports_stored _, ?_⟩
    refine getoptAll_long s'.name (name_ne _) rest _ (fun next => ?_)
    unfold longEvent
    simp only [(name_takeWhile s' []).2, h1, List.drop_length, h3, h4]
    rfl
  | long s' w =>
    obtain rfl := Option.some.inj hs
    obtain ⟨x, hx, hw, hi⟩ := hg
    obtain ⟨o, h1, _, h2⟩ := findLong s'
    obtain ⟨h3, c, hc, hl, h4⟩ := h2 x hx
    refine ⟨[.letter c (some w)], reports_letter hc hl hw hi, ?_⟩
    refine getoptAll_long_arg s'.name w (name_ne _) rest _ ?_
    unfold longEvent
    simp only [(name_takeWhile s' []).2, h1, List.drop_length, h3, h4]
    rfl
  | equals s' w =>
    obtain rfl := Option.some.inj hs
    obtain ⟨x, hx, hw, hi⟩ := hg
    obtain ⟨o, h1, _, h2⟩ := findLong s'
    obtain ⟨h3, c, hc, hl, h4⟩ := h2 x hx
    refine ⟨[.letter c (some w)], reports_letter hc hl hw hi, ?_⟩
    have e : Item.words (.equals s' w) ++ rest = ('-' :: '-' :: (s'.name ++ '=' :: w)) :: rest := by simp [Item.words]
    rw [e]
    refine getoptAll_long _ (by simp) rest _ (fun next => ?_)
    unfold longEvent
    simp only [(name_takeWhile s' w).1, h1, List.drop_left, h3, h4]
    rfl
  | short s' c w =>
    obtain rfl := Option.some.inj hs
    obtain ⟨⟨x, hx, hw, hi⟩, hl⟩ := hg
    obtain ⟨h1, h2, h3, h4, h5, h6⟩ := letter_ok hl
    refine ⟨[.letter c (some w)], reports_letter h4 (h6 x hx) hw hi, ?_⟩
    show getoptAll (['-', c] :: w :: rest) = _
    have e : clusterEvents (some w) [c] = ([.letter c (some w)], true) := by
      simp [clusterEvents, h2, h3, h5]
    exact getoptAll_short_arg c [] w rest _ h1 e
  | joined s' c w =>
    obtain rfl := Option.some.inj hs
    obtain ⟨⟨x, hx, hw, hi⟩, hl⟩ := hg
    obtain ⟨h1, h2, h3, h4, h5, h6⟩ := letter_ok hl
    refine ⟨[.letter c (some w)], reports_letter h4 (h6 x hx) hw hi, ?_⟩
    show getoptAll (('-' :: c :: w) :: rest) = _
    have hne : w ≠ [] := by obtain ⟨c, k, rfl, _⟩ := hw.solid; simp
    have e : ∀ next, clusterEvents next (c :: w) = ([.letter c (some w)], false) := by
      intro next
      simp [clusterEvents, h2, h3, h5, hne]
    exact getoptAll_short c w rest _ h1 e
  | file f => exact nomatch hs

end GraphMat
