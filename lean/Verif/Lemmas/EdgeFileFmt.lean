import Verif.Lemmas.EdgeFile

namespace GraphMat

variable {E : Type}

/-! ### Binary files -/

theorem decInt_encInt {x : Int} (h : IsInt32 x) : decInt (encInt x) = x := by
  obtain ⟨h1, h2⟩ := h
  unfold decInt encInt
  simp only [List.getD_cons_zero, List.getD_cons_succ]
  generalize hu : (x % 4294967296).toNat = u
  have hx : (u : Int) = x % 4294967296 := by omega
  have : u % 256 + 256 * (u / 256 % 256) + 65536 * (u / 65536 % 256) + 16777216 * (u / 16777216 % 256) = u := by
    omega
  rw [this]
  by_cases h0 : u < 2147483648
  · rw [if_pos h0]; omega
  · rw [if_neg h0]; omega

theorem encInt_length (x : Int) : (encInt x).length = 4 := rfl

/-- What the bytes of a weight have to satisfy: their number is `sizeof(T)` and copying them back gives the value. -/
structure BinType.Good (bt : BinType E) : Prop where
  len : ∀ v, (bt.enc v).length = bt.size
  dec : ∀ v, bt.dec (bt.enc v) = v

/-- The same for one value. -/
structure BinType.Ok (bt : BinType E) (v : E) : Prop where
  len : (bt.enc v).length = bt.size
  dec : bt.dec (bt.enc v) = v

theorem BinType.Good.ok {bt : BinType E} (hb : bt.Good) (v : E) : bt.Ok v := ⟨hb.len v, hb.dec v⟩

theorem fread_append {n : Nat} {l k : List Nat} (h : l.length = n) (b : Bool) :
    (⟨l ++ k, b⟩ : FileSt Nat).fread n = some (some l, ⟨k, b⟩) := by
  unfold FileSt.fread
  subst h
  simp

theorem readLineBin_line {bt : BinType E} (weights : Bool) {e : Edge E} (hb : bt.Ok e.val) (hs : IsInt32 e.src)
    (hd : IsInt32 e.dst) (k : List Nat) :
    readLineBin bt weights ⟨writeLineBin bt weights e ++ k, false⟩
      = some (⟨some e.src, some e.dst, some (seenEdge weights bt.one e).val, true⟩, ⟨k, false⟩) := by
  unfold readLineBin writeLineBin
  rw [List.append_assoc, List.append_assoc, fread_append (encInt_length _)]
  simp only [Option.bind_eq_bind, Option.bind_some, Bool.false_eq_true, if_false]
  unfold readLineBinDst
  rw [fread_append (encInt_length _)]
  simp only [Option.bind_eq_bind, Option.bind_some, Bool.false_eq_true, if_false]
  unfold readLineBinVal
  rw [decInt_encInt hs, decInt_encInt hd]
  cases weights with
  | false => simp [seenEdge]
  | true =>
    simp only [if_true]
    rw [fread_append hb.len]
    simp [hb.dec, seenEdge]

theorem seenEdge_eta (weights : Bool) (one : E) (e : Edge E) :
    (⟨e.src, e.dst, (seenEdge weights one e).val⟩ : Edge E) = seenEdge weights one e := by
  cases weights <;> simp [seenEdge]

theorem binTrace {bt : BinType E} (weights : Bool) : ∀ (es : List (Edge E)), (∀ e, e ∈ es → bt.Ok e.val) →
    (∀ e, e ∈ es → IsInt32 e.src ∧ IsInt32 e.dst) →
    Trace (binReader bt weights) ⟨es.flatMap (writeLineBin bt weights), false⟩
      (es.map (seenEdge weights bt.one)) none := by
  intro es
  induction es with
  | nil =>
    intro _ _
    refine Trace.stop (f' := ⟨[], true⟩) rfl ?_
    show readLineBin bt weights _ = _
    simp [readLineBin, FileSt.fread]
  | cons e es ih =>
    intro hb h
    rw [List.flatMap_cons, List.map_cons, ← seenEdge_eta]
    refine Trace.line (f' := ⟨es.flatMap (writeLineBin bt weights), false⟩) rfl ?_ ?_
      (ih (fun x hx => hb x (by simp [hx])) (fun x hx => h x (by simp [hx])))
    · exact readLineBin_line weights (hb e (by simp)) (h e (by simp)).1 (h e (by simp)).2 _
    · simp only [List.length_append, writeLineBin, encInt_length]; omega

theorem readHeaderBin_ok {m n k : Int} (hm : IsInt32 m) (hn : IsInt32 n) (hk : IsInt32 k) (l : List Nat) :
    readHeaderBin (FileSt.openRead (encInt m ++ encInt n ++ encInt k ++ l)) = some ((m, n, k), ⟨l, false⟩) := by
  have e1 : (encInt m ++ encInt n ++ encInt k ++ l).take 4 = encInt m := by simp [encInt]
  have e2 : ((encInt m ++ encInt n ++ encInt k ++ l).drop 4).take 4 = encInt n := by simp [encInt]
  have e3 : ((encInt m ++ encInt n ++ encInt k ++ l).drop 8).take 4 = encInt k := by simp [encInt]
  have e4 : (encInt m ++ encInt n ++ encInt k ++ l).drop 12 = l := by simp [encInt]
  have e5 : 12 ≤ (encInt m ++ encInt n ++ encInt k ++ l).length := by
    simp only [List.length_append, encInt_length]; omega
  unfold readHeaderBin
  rw [if_pos (show 12 ≤ (FileSt.openRead (encInt m ++ encInt n ++ encInt k ++ l)).rest.length from e5)]
  unfold FileSt.openRead
  simp only []
  rw [e1, e2, e3, e4, decInt_encInt hm, decInt_encInt hn, decInt_encInt hk]

theorem writeBin_eq {bt : BinType E} {header weights : Bool} {el : EdgeList E} (h : el.nnz ≤ el.edges.size) :
    writeBin bt header weights el = some ((if header then encInt el.m ++ encInt el.n ++ encInt (el.nnz : Int) else [])
      ++ el.list.flatMap (writeLineBin bt weights)) := by
  unfold writeBin
  simp only []
  obtain ⟨s', e1, e2⟩ := forLoop_inv (fun i (out : List Nat) => out =
      (if header then encInt el.m ++ encInt el.n ++ encInt (el.nnz : Int) else [])
        ++ (el.edges.pre i).flatMap (writeLineBin bt weights)) (lo := 0) (hi := el.nnz)
    (s := if header then encInt el.m ++ encInt el.n ++ encInt (el.nnz : Int) else [])
    (body := fun i out => do
      let e ← el.edges.read i
      some (out ++ writeLineBin bt weights e)) (Nat.zero_le _) (by simp [Arr.pre_zero]) (by
      intro i out h1 h2 hI
      refine ⟨_, by rw [Arr.read_some (by omega)]; rfl, ?_⟩
      rw [hI, Arr.pre_succ, List.flatMap_append, List.append_assoc]
      simp)
  rw [e1, e2]
  rfl

/-! ### Text files -/

theorem isSpace_iff (c : Char) : isSpace c = true ↔ c ∈ whiteChars := by
  simp [isSpace, whiteChars, or_assoc]

theorem dropWhile_blanks {b l : List Char} (hb : Blanks b) : (b ++ l).dropWhile isSpace = l.dropWhile isSpace := by
  induction b with
  | nil => rfl
  | cons c b ih =>
    rw [List.cons_append, List.dropWhile_cons, if_pos ((isSpace_iff c).2 (hb c (by simp)))]
    exact ih (fun x hx => hb x (by simp [hx]))

/-- The end of an item: nothing follows, or white space. -/
def AtEnd (l : List Char) : Prop := l = [] ∨ ∃ c k, l = c :: k ∧ c ∈ whiteChars

theorem AtEnd.append {b l : List Char} (hb : Blanks b) (hne : b ≠ []) : AtEnd (b ++ l) := by
  cases b with
  | nil => exact absurd rfl hne
  | cons c b => exact Or.inr ⟨c, b ++ l, rfl, hb c (by simp)⟩

theorem AtEnd.blanks {b : List Char} (hb : Blanks b) : AtEnd b := by
  cases b with
  | nil => exact Or.inl rfl
  | cons c b => exact Or.inr ⟨c, b, rfl, hb c (by simp)⟩

theorem digitVal_white {c : Char} (h : c ∈ whiteChars) : digitVal c = none := by
  have : ∀ c ∈ whiteChars, digitVal c = none := by decide
  exact this c h

theorem digitVal_digitChar {d : Nat} (h : d < 10) : digitVal (digitChar d) = some d := by
  have : ∀ d : Fin 10, digitVal (digitChar d.1) = some d.1 := by decide
  exact this ⟨d, h⟩

theorem digitChar_ne {d : Nat} (h : d < 10) : digitChar d ≠ '-' ∧ digitChar d ≠ '+' ∧ isSpace (digitChar d) = false := by
  have : ∀ d : Fin 10, digitChar d.1 ≠ '-' ∧ digitChar d.1 ≠ '+' ∧ isSpace (digitChar d.1) = false := by decide
  exact this ⟨d, h⟩

theorem scanDigits_ok {rest : List Char} (hr : AtEnd rest) : ∀ (ds : List Nat) (acc k : Nat), (∀ d, d ∈ ds → d < 10) →
    scanDigits (ds.map digitChar ++ rest) acc k
      = (ds.foldl (fun acc d => 10 * acc + d) acc, k + ds.length, rest) := by
  intro ds
  induction ds with
  | nil =>
    intro acc k _
    rcases hr with rfl | ⟨c, l, rfl, hc⟩
    · simp [scanDigits]
    · simp [scanDigits, digitVal_white hc]
  | cons d ds ih =>
    intro acc k h
    simp only [List.map_cons, List.cons_append, scanDigits, digitVal_digitChar (h d (by simp))]
    rw [ih _ _ (fun x hx => h x (by simp [hx]))]
    simp only [List.foldl_cons, List.length_cons]
    congr 2; omega

theorem scanNat_ok {rest : List Char} (hr : AtEnd rest) {ds : List Nat} (hne : ds ≠ []) (h : ∀ d, d ∈ ds → d < 10) :
    scanNat (ds.map digitChar ++ rest) = some (digitsValue ds, rest) := by
  unfold scanNat
  simp only []
  rw [scanDigits_ok hr _ _ _ h]
  simp only [Nat.zero_add]
  rw [if_neg (by simpa using hne)]
  rfl

theorem scanInt_ok {rest : List Char} (hr : AtEnd rest) {x : Int} {l : List Char} (h : IsNumeral x l) :
    scanInt (l ++ rest) = some (x, rest) := by
  obtain ⟨ds, hne, hd, ⟨rfl, rfl⟩ | ⟨rfl, rfl⟩ | ⟨rfl, rfl⟩⟩ := h
  · have h2 := scanNat_ok hr hne hd
    cases ds with
    | nil => exact absurd rfl hne
    | cons d ds =>
      have := digitChar_ne (hd d (by simp))
      rw [List.map_cons, List.cons_append] at h2 ⊢
      unfold scanInt
      split
      · rename_i heq; exact absurd (List.cons.inj heq).1 this.1
      · rename_i heq; exact absurd (List.cons.inj heq).1 this.2.1
      · rw [h2]; rfl
  · rw [List.cons_append]
    unfold scanInt
    simp only []
    rw [scanNat_ok hr hne hd]; rfl
  · rw [List.cons_append]
    unfold scanInt
    simp only []
    rw [scanNat_ok hr hne hd]; rfl

/-- A text that begins with something other than white space. -/
def Solid (l : List Char) : Prop := ∃ c k, l = c :: k ∧ c ∉ whiteChars

theorem Solid.dropWhile {l : List Char} (h : Solid l) (k : List Char) : (l ++ k).dropWhile isSpace = l ++ k := by
  obtain ⟨c, m, rfl, hc⟩ := h
  rw [List.cons_append, List.dropWhile_cons, if_neg]
  rw [isSpace_iff]; exact hc

theorem IsNumeral.solid {x : Int} {l : List Char} (h : IsNumeral x l) : Solid l := by
  obtain ⟨ds, hne, hd, ⟨rfl, rfl⟩ | ⟨rfl, rfl⟩ | ⟨rfl, rfl⟩⟩ := h
  · cases ds with
    | nil => exact absurd rfl hne
    | cons d ds =>
      refine ⟨_, _, List.map_cons .., ?_⟩
      rw [← isSpace_iff, (digitChar_ne (hd d (by simp))).2.2]
      simp
  · exact ⟨_, _, rfl, by decide⟩
  · exact ⟨_, _, rfl, by decide⟩

theorem conv_ok {α : Type} {scan : List Char → Option (α × List Char)} {b l rest : List Char} {v : α} (hb : Blanks b)
    (hl : Solid l) (h : scan (l ++ rest) = some (v, rest)) :
    (⟨b ++ (l ++ rest), false⟩ : FileSt Char).conv scan = (some v, ⟨rest, rest.isEmpty⟩) := by
  unfold FileSt.conv
  simp only []
  rw [dropWhile_blanks hb, hl.dropWhile, h]
  simp

theorem convInt_ok {b l rest : List Char} {x : Int} (hb : Blanks b) (hl : IsNumeral x l) (hx : IsInt32 x)
    (hr : AtEnd rest) :
    (⟨b ++ (l ++ rest), false⟩ : FileSt Char).convInt = some (some x, ⟨rest, rest.isEmpty⟩) := by
  unfold FileSt.convInt
  simp only []
  rw [conv_ok hb hl.solid (scanInt_ok hr hl)]
  simp only []
  rw [if_pos (show INT_MIN ≤ x ∧ x ≤ INT_MAX from hx)]

/-- The conversion of the weights reads the texts that denote weights. -/
structure TextType.Reads (tt : TextType E) (wt : E → List Char → Prop) : Prop where
  solid : ∀ v l, wt v l → Solid l
  scan : ∀ v l rest, wt v l → AtEnd rest → tt.scan (l ++ rest) = some (v, rest)

theorem isEmpty_append_false {b l : List Char} (h : b ≠ []) : (b ++ l).isEmpty = false := by
  cases b with
  | nil => exact absurd rfl h
  | cons c b => rfl

theorem readLineText_line {tt : TextType E} {wt : E → List Char → Prop} (ht : tt.Reads wt) {weights : Bool}
    {t : TextLine E} (hg : t.Good wt weights tt.one) {b rest : List Char} (hb : Blanks b)
    (hend : AtEnd (t.term ++ rest)) :
    readLineText tt weights ⟨b ++ (t.chars weights ++ rest), false⟩
      = some (⟨some t.edge.src, some t.edge.dst, some t.edge.val, !(t.term ++ rest).isEmpty⟩,
          ⟨t.term ++ rest, (t.term ++ rest).isEmpty⟩) := by
  unfold readLineText TextLine.chars
  simp only [List.append_assoc]
  rw [convInt_ok hb hg.src.1 hg.src.2 (AtEnd.append hg.sep.2 hg.sep.1), isEmpty_append_false hg.sep.1]
  simp only [Option.bind_eq_bind, Option.bind_some]
  cases weights with
  | false =>
    simp only [Bool.false_eq_true, if_false, List.nil_append]
    rw [convInt_ok hg.sep.2 hg.dst.1 hg.dst.2 hend]
    simp only [Option.bind_some, readLineTextVal, Bool.false_eq_true, if_false]
    rw [hg.one rfl]
  | true =>
    simp only [if_true, List.append_assoc]
    obtain ⟨s1, s2⟩ := hg.sep' rfl
    rw [convInt_ok hg.sep.2 hg.dst.1 hg.dst.2 (AtEnd.append s2 s1), isEmpty_append_false s1]
    simp only [Option.bind_some, readLineTextVal, if_true]
    rw [conv_ok s2 (ht.solid _ _ (hg.val rfl)) (ht.scan _ _ _ (hg.val rfl) hend)]

theorem chars_length_pos {t : TextLine E} {wt : E → List Char → Prop} {weights : Bool} {one : E}
    (hg : t.Good wt weights one) : 0 < (t.src ++ t.sep).length := by
  obtain ⟨c, k, h, _⟩ := hg.src.1.solid
  rw [h]; simp

theorem readLineText_empty (tt : TextType E) (weights : Bool) {b : List Char} (hb : Blanks b) :
    readLineText tt weights ⟨b, false⟩ = some (⟨none, none, none, false⟩, ⟨[], true⟩) := by
  have e : b.dropWhile isSpace = [] := by
    have := dropWhile_blanks (l := []) hb
    rwa [List.append_nil] at this
  have e2 : (⟨b, false⟩ : FileSt Char).conv scanInt = (none, ⟨[], true⟩) := by
    unfold FileSt.conv
    simp only []
    rw [e]
    rfl
  unfold readLineText FileSt.convInt
  rw [e2]
  rfl

theorem textTrace {tt : TextType E} {wt : E → List Char → Prop} (ht : tt.Reads wt) {weights : Bool} :
    ∀ (ls : List (TextLine E)) (b : List Char), Blanks b → (∀ l, l ∈ ls → l.Good wt weights tt.one) →
    (∀ l, l ∈ ls → l.term ≠ []) →
    Trace (textReader tt weights) ⟨b ++ ls.flatMap (TextLine.chars weights), false⟩ (ls.map TextLine.edge) none := by
  intro ls
  induction ls with
  | nil =>
    intro b hb _ _
    rw [List.flatMap_nil, List.append_nil]
    exact Trace.stop rfl (readLineText_empty tt weights hb)
  | cons l ls ih =>
    intro b hb hg ht'
    have g := hg l (by simp)
    have t := ht' l (by simp)
    rw [List.flatMap_cons, List.map_cons]
    have q := readLineText_line ht g (rest := ls.flatMap (TextLine.chars weights)) hb (AtEnd.append g.term t)
    rw [isEmpty_append_false t] at q
    refine Trace.line rfl q ?_ (ih _ g.term (fun x hx => hg x (by simp [hx])) (fun x hx => ht' x (by simp [hx])))
    have := chars_length_pos g
    simp only [List.length_append, TextLine.chars] at this ⊢
    omega

theorem textTrace_dangle {tt : TextType E} {wt : E → List Char → Prop} (ht : tt.Reads wt) {weights : Bool}
    {last : TextLine E} (hlast : last.Good wt weights tt.one) (hterm : last.term = []) :
    ∀ (ls : List (TextLine E)) (b : List Char), Blanks b → (∀ l, l ∈ ls → l.Good wt weights tt.one) →
    (∀ l, l ∈ ls → l.term ≠ []) →
    Trace (textReader tt weights) ⟨b ++ (ls ++ [last]).flatMap (TextLine.chars weights), false⟩ (ls.map TextLine.edge)
      (some last.edge) := by
  intro ls
  induction ls with
  | nil =>
    intro b hb _ _
    have q := readLineText_line ht hlast (rest := []) hb (by rw [hterm]; exact Or.inl rfl)
    rw [hterm] at q
    rw [List.nil_append, List.flatMap_cons, List.flatMap_nil]
    exact Trace.dangle rfl q
  | cons l ls ih =>
    intro b hb hg ht'
    have g := hg l (by simp)
    have t := ht' l (by simp)
    rw [List.cons_append, List.flatMap_cons, List.map_cons]
    have q := readLineText_line ht g (rest := (ls ++ [last]).flatMap (TextLine.chars weights)) hb (AtEnd.append g.term t)
    rw [isEmpty_append_false t] at q
    refine Trace.line rfl q ?_ (ih _ g.term (fun x hx => hg x (by simp [hx])) (fun x hx => ht' x (by simp [hx])))
    have := chars_length_pos g
    simp only [List.length_append, TextLine.chars] at this ⊢
    omega

theorem readHeaderText_ok {h : TextHead} {k : Nat} (hg : h.Good k) (rest : List Char) :
    readHeaderText (FileSt.openRead (h.chars ++ rest)) = some ((h.m, h.n, (k : Int)), ⟨h.term ++ rest, false⟩) := by
  unfold readHeaderText FileSt.openRead TextHead.chars
  have a := convInt_ok (b := []) (by intro c hc; cases hc) hg.m.1 hg.m.2
    (AtEnd.append (l := h.nt ++ (h.sep' ++ (h.kt ++ (h.term ++ rest)))) hg.sep.2 hg.sep.1)
  simp only [List.append_assoc]
  rw [List.nil_append] at a
  rw [a, isEmpty_append_false hg.sep.1]
  simp only [Option.bind_eq_bind, Option.bind_some]
  rw [convInt_ok hg.sep.2 hg.n.1 hg.n.2 (AtEnd.append hg.sep'.2 hg.sep'.1), isEmpty_append_false hg.sep'.1]
  simp only [Option.bind_some]
  rw [convInt_ok hg.sep'.2 hg.k.1 hg.k.2 (AtEnd.append hg.term.2 hg.term.1), isEmpty_append_false hg.term.1]
  simp only [Option.bind_some]
  rw [if_neg (by omega)]

/-- The edges that `readLine` counts. -/
noncomputable def TextFile.counted (t : TextFile E) : List (Edge E) :=
  open Classical in if t.Ended then t.edges else t.edges.dropLast

/-- The dangling edge. -/
noncomputable def TextFile.dangling (t : TextFile E) : Option (Edge E) :=
  open Classical in if t.Ended then none else t.edges.getLast?

theorem textFileTrace {tt : TextType E} {wt : E → List Char → Prop} (ht : tt.Reads wt) {header weights : Bool}
    {t : TextFile E} (hg : t.Good wt header weights tt.one) {b : List Char} (hb : Blanks b) :
    Trace (textReader tt weights) ⟨b ++ t.lines.flatMap (TextLine.chars weights), false⟩ t.counted t.dangling := by
  by_cases he : t.Ended
  · have := textTrace ht t.lines b hb hg.lines he
    unfold TextFile.counted TextFile.dangling
    rw [if_pos he, if_pos he]
    exact this
  · unfold TextFile.counted TextFile.dangling
    rw [if_neg he, if_neg he]
    obtain ⟨head, lines⟩ := t
    rcases List.eq_nil_or_concat lines with rfl | ⟨init, last, rfl⟩
    · exact absurd (fun l hl => by cases hl) he
    · rw [List.concat_eq_append] at *
      have hterm : last.term = [] := by
        apply Classical.byContradiction
        intro hn
        apply he
        intro l hl
        rcases List.mem_append.1 hl with h | h
        · exact hg.term l (by simpa using h)
        · rw [List.mem_singleton] at h; rw [h]; exact hn
      have := textTrace_dangle ht (hg.lines last (by simp)) hterm init b hb (fun l hl => hg.lines l (by simp [hl]))
        (fun l hl => hg.term l (by simpa using hl))
      simpa [TextFile.edges] using this

theorem counted_dangling (t : TextFile E) : t.counted ++ t.dangling.toList = t.edges := by
  unfold TextFile.counted TextFile.dangling
  by_cases he : t.Ended
  · rw [if_pos he, if_pos he]; simp
  · rw [if_neg he, if_neg he]
    rcases List.eq_nil_or_concat t.edges with h | ⟨init, last, h⟩
    · rw [h]; simp
    · rw [h]; simp

end GraphMat
