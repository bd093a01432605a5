import Verif.Lemmas.LoopSer
import Verif.Lemmas.LoopBuild

/-!
# C67: packing and unpacking serialized messages

The parallel loops of `compress()` and `decompress()` for types that derive from `Serializable` have no data race and one
outcome.  The sequential models keep the contents of the archives as lists of pairs; here they are bytes, concatenated in
`serialized_data` at the positions given by the prefix sums.
-/
namespace GraphMat

variable {α : Type}

/-- The first loop of `compress`: every iteration fills its own stream and counts.  Afterwards the streams hold the bytes of
the archives whose contents the sequential model computes. -/
theorem pack_tasks (ar : ByteArchive α) {threads : Nat} {b b' : Buffer α} (h : b.compressSer threads = some b') (s : SerMem α)
    (hv : s.val = b.value) (hb : s.bits = b.bits) (hs : ∀ p, s.strm.get p = []) :
    ∃ (strm : Arr (List Byte)) (nnz nbytes : Arr Nat), b'.sdata.length = threads * 16 ∧
      (∀ p, p < threads * 16 → strm.get p = ar.bytes (b'.sdata.getD p []) ∧ nnz.get p = (b'.sdata.getD p []).length ∧
        nbytes.get p = (ar.bytes (b'.sdata.getD p [])).length) ∧
      OneOutcome (parFor (threads * 16) (packC ar b.bits.size (threads * 16))) (arrMem (serA s))
        (arrMem (serA { s with strm := strm, nnz := nnz, nbytes := nbytes })) (fun _ => ()) := by
  unfold Buffer.compressSer at h
  simp only at h
  split_ifs at h with hnp
  generalize threads * 16 = np at h hnp
  simp only [Option.bind_eq_bind, Option.bind_eq_some_iff, Option.some.injEq] at h
  obtain ⟨parts, h, rfl⟩ := h
  obtain ⟨hl, hp⟩ := mapM_getElem h
  rw [List.length_range] at hl
  refine ⟨⟨s.strm.size, fun p => if p < np then ar.bytes (parts.getD p []) else s.strm.get p⟩,
    ⟨s.nnz.size, fun p => if p < np then (parts.getD p []).length else s.nnz.get p⟩,
    ⟨s.nbytes.size, fun p => if p < np then (ar.bytes (parts.getD p [])).length else s.nbytes.get p⟩, hl, ?_, ?_⟩
  · intro p hlt
    exact ⟨if_pos hlt, if_pos hlt, if_pos hlt⟩
  · refine parFor_map packOut ?_ ?_
    · intro k j hk
      have hj : packOut k → ¬ j < np := fun h1 h2 => hk ⟨h1, h2⟩
      cases k with
      | strm => exact if_neg (hj (Or.inl rfl))
      | nnz => exact if_neg (hj (Or.inr (Or.inl rfl)))
      | nbytes => exact if_neg (hj (Or.inr (Or.inr rfl)))
      | val => rfl
      | bits => rfl
      | nscan => rfl
      | bscan => rfl
      | data => rfl
    · intro p hlt m hm1 hm2
      obtain ⟨part, h1, h2⟩ := hp p (by rw [List.length_range]; exact hlt)
      rw [List.getElem_range] at h2
      have e : parts.getD p [] = part := by rw [List.getD_eq_getElem?_getD, h1]; rfl
      obtain ⟨m', d, d1, d2, d3⟩ := packC_does (ar := ar) h2 m
        (fun j => by
          rw [hm1 .val j (by rintro (h | h | h) <;> cases h)]
          show s.val.get j = _
          rw [hv])
        (fun j => by
          rw [hm1 .bits j (by rintro (h | h | h) <;> cases h)]
          show s.bits.get j = _
          rw [hb])
        (by rw [hm2 .strm]; exact hs p)
      refine ⟨m', d, ?_⟩
      rintro k (rfl | rfl | rfl)
      · refine Eq.trans d1 ?_
        show _ = if p < np then _ else _
        rw [if_pos hlt, e]
      · refine Eq.trans d2 ?_
        show _ = if p < np then _ else _
        rw [if_pos hlt, e]
      · refine Eq.trans d3 ?_
        show _ = if p < np then _ else _
        rw [if_pos hlt, e]

/-- The second loop of `compress`: every iteration copies its stream to its own piece of `serialized_data`.  `ps` are the
bytes in the streams; the positions are the prefix sums of their numbers.  Afterwards `serialized_data` holds the
concatenation. -/
theorem flush_tasks {np : Nat} (ps : List (List Byte)) (hps : ps.length = np) (s : SerMem α)
    (hst : ∀ p, p < np → s.strm.get p = ps.getD p []) (hn : ∀ p, p < np → s.nbytes.get p = (ps.getD p []).length)
    (hsc : ∀ p, p < np → s.bscan.get p = (ps.take p).flatten.length) :
    ∃ (data : Arr Byte) (strm : Arr (List Byte)), data.size = s.data.size ∧
      (∀ k, data.get k = if k < ps.flatten.length then ps.flatten.getD k 0#8 else s.data.get k) ∧
      OneOutcome (parFor np (flushC : Nat → SerCode α Unit)) (arrMem (serA s))
        (arrMem (serA { s with data := data, strm := strm })) (fun _ => ()) := by
  let M : Nat → Nat → SerMem α := fun p k => { s with
    data := ⟨s.data.size, fun j => if j < pieceLo ps p + k then ps.flatten.getD j 0#8 else s.data.get j⟩,
    strm := ⟨s.strm.size, fun q => if q < p then [] else s.strm.get q⟩ }
  have o := parFor_at (n := np) (body := (flushC : Nat → SerCode α Unit)) (own := flushOwn ps)
    (shared := fun l : SerArr × Nat => l.1 = .bscan ∨ l.1 = .nbytes) (fun p => arrMem (serA (M p 0))) ?_ ?_ ?_
  · refine ⟨⟨s.data.size, fun k => if k < ps.flatten.length then ps.flatten.getD k 0#8 else s.data.get k⟩,
      ⟨s.strm.size, fun q => if q < np then [] else s.strm.get q⟩, rfl, fun k => rfl, ?_⟩
    have e0 : arrMem (serA (M 0 0)) = arrMem (serA s) := by
      funext l
      obtain ⟨k, j⟩ := l
      cases k with
      | data =>
        have e : ¬ j < pieceLo ps 0 + 0 := by simp [pieceLo]
        show (if j < pieceLo ps 0 + 0 then ps.flatten.getD j 0#8 else s.data.get j) = s.data.get j
        rw [if_neg e]
      | strm =>
        show (if j < 0 then [] else s.strm.get j) = s.strm.get j
        rw [if_neg (Nat.not_lt_zero j)]
      | _ => rfl
    have e1 : M np 0 = { s with
        data := ⟨s.data.size, fun k => if k < ps.flatten.length then ps.flatten.getD k 0#8 else s.data.get k⟩,
        strm := ⟨s.strm.size, fun q => if q < np then [] else s.strm.get q⟩ } := by
      simp only [M, pieceLo_all ps (Nat.le_of_eq hps), Nat.add_zero]
    rw [e0, e1] at o
    exact o
  · rintro i j l _ _ (rfl | ⟨a0, a1, a2⟩) (b | ⟨b0, b1, b2⟩)
    · injection b
    · cases b0
    · rw [b] at a0; cases a0
    · rcases Nat.lt_trichotomy i j with hij | hij | hij
      · have := pieceLo_mono ps (p := i + 1) (q := j) hij; omega
      · exact hij
      · have := pieceLo_mono ps (p := j + 1) (q := i) hij; omega
  · rintro i l _ (rfl | ⟨a, _⟩) (b | b)
    · cases b
    · cases b
    · rw [a] at b; cases b
    · rw [a] at b; cases b
  · intro p hp
    have o1 : flushOwn ps p (.strm, p) := Or.inl rfl
    unfold flushC
    refine (Does.rdv (Or.inr (Or.inl rfl)) (v := pieceLo ps p) (hsc p hp)).bind ?_
    refine (Does.rdv (Or.inr (Or.inr rfl)) (v := (ps.getD p []).length) (hn p hp)).bind ?_
    refine (Does.rdv (Or.inl o1) (v := ps.getD p []) ?_).bind ?_
    · refine Eq.trans ?_ (hst p hp)
      exact if_neg (by omega)
    refine (Does.forAt (fun _ => ()) (fun k => arrMem (serA (M p k))) (Nat.zero_le _) ?_).bind ?_
    · intro k _ hk
      have ok : flushOwn ps p (.data, pieceLo ps p + k) := by
        refine Or.inr ⟨rfl, Nat.le_add_right _ _, ?_⟩
        show pieceLo ps p + k < _
        rw [pieceLo_succ]; omega
      refine (Does.wrv ok _ _).to ?_
      funext l
      obtain ⟨n, j⟩ := l
      by_cases e : (n, j) = (SerArr.data, pieceLo ps p + k)
      · cases e
        rw [Function.update_self]
        refine Eq.trans ?_ (if_pos (by omega)).symm
        exact (pieceLo_get ps p k 0#8 hk).symm
      · rw [Function.update_of_ne e]
        cases n with
        | data =>
          have hj : j ≠ pieceLo ps p + k := fun h => e (by rw [h])
          show (if j < pieceLo ps p + k then _ else _) = if j < pieceLo ps p + (k + 1) then _ else _
          by_cases h1 : j < pieceLo ps p + k
          · rw [if_pos h1, if_pos (by omega)]
          · rw [if_neg h1, if_neg (by omega)]
        | _ => rfl
    · refine (Does.wrv o1 _ _).to ?_
      funext l
      obtain ⟨n, j⟩ := l
      by_cases e : (n, j) = (SerArr.strm, p)
      · cases e
        rw [Function.update_self]
        refine Eq.trans ?_ (if_pos (by omega)).symm
        simp
      · rw [Function.update_of_ne e]
        cases n with
        | strm =>
          have hj : j ≠ p := fun h => e (by rw [h])
          show (if j < p then _ else _) = if j < p + 1 then _ else _
          by_cases h1 : j < p
          · rw [if_pos h1, if_pos (by omega)]
          · rw [if_neg h1, if_neg (by omega)]
        | data =>
          show (if j < pieceLo ps p + _ then _ else _) = if j < pieceLo ps (p + 1) + 0 then _ else _
          rw [pieceLo_succ, Nat.add_zero]
        | _ => rfl

/-- The entries that `compress` puts into partition `p` are in the words of that partition. -/
theorem compressSer_words {threads : Nat} {b b' : Buffer α} (h : b.compressSer threads = some b') {p : Nat}
    (hp : p < threads * 16) (e : Nat × α) (he : e ∈ b'.sdata.getD p []) :
    wordLo b.bits.size (threads * 16) p ≤ e.1 / 32 ∧ e.1 / 32 < wordLo b.bits.size (threads * 16) (p + 1) := by
  unfold Buffer.compressSer at h
  simp only at h
  split_ifs at h with hnp
  generalize threads * 16 = np at h hp
  simp only [Option.bind_eq_bind, Option.bind_eq_some_iff, Option.some.injEq] at h
  obtain ⟨parts, h, rfl⟩ := h
  obtain ⟨part, h1, h2⟩ := (mapM_getElem h).2 p (by rw [List.length_range]; exact hp)
  rw [List.getElem_range] at h2
  have e' : parts.getD p [] = part := by rw [List.getD_eq_getElem?_getD, h1]; rfl
  have he : e ∈ parts.getD p [] := he
  rw [e'] at he
  rw [forBits_part rfl] at h2
  have key : ∀ (l : List Nat) (acc part : List (Nat × α)), l.foldlM (fun acc i => (b.value.read i).bind
      (fun v => some (acc ++ [(i, v)]))) acc = some part → ∀ e ∈ part, e ∈ acc ∨ e.1 ∈ l := by
    intro l
    induction l with
    | nil =>
      intro acc part h e he
      injection h with h
      subst h
      exact Or.inl he
    | cons i l ih =>
      intro acc part h e he
      rw [List.foldlM_cons, Option.bind_eq_bind, Option.bind_eq_some_iff] at h
      obtain ⟨acc', h1, h2⟩ := h
      rw [Option.bind_eq_some_iff] at h1
      obtain ⟨v, _, h1⟩ := h1
      injection h1 with h1
      subst h1
      rcases ih _ _ h2 e he with h3 | h3
      · rw [List.mem_append, List.mem_singleton] at h3
        rcases h3 with h3 | rfl
        · exact Or.inl h3
        · exact Or.inr List.mem_cons_self
      · exact Or.inr (List.mem_cons_of_mem _ h3)
  have hm : e.1 ∈ bitsIn b.bits (wordLo b.bits.size np p) (wordLo b.bits.size np (p + 1)) := by
    rcases key _ _ _ h2 e he with h3 | h3
    · cases h3
    · exact h3
  unfold bitsIn at hm
  rw [List.mem_filter, List.mem_range'_1] at hm
  omega

/-- The parallel loop of `decompress`: every iteration decodes its own piece of `serialized_data` and stores elements in its own
words.  `b0` is the buffer of the sender; the receiver has the bytes of the archives and both arrays of prefix sums.  The
only thing assumed of the archives (`har`) is that reading gives back what was written. -/
theorem unpack_tasks (ar : ByteArchive α) {threads : Nat} {b0 b1 b b' : Buffer α} (h0 : b0.compressSer threads = some b1)
    (har : ∀ l ∈ b1.sdata, ∀ k, k < l.length → l[k]? = some (ar.get (ar.bytes l) k)) (hb : b.sdata = b1.sdata)
    {bits0 : Arr Word} (hz : memsetZero b.bits.size b.bits = some bits0) (h : b.decompressSer = some b') (s : SerMem α)
    (hv : s.val = b.value) (hbits : s.bits = bits0) (hst : ∀ p, s.strm.get p = [])
    (hn : ∀ p, p ≤ threads * 16 → s.nscan.get p = (b1.sdata.take p).flatten.length)
    (hs : ∀ p, p ≤ threads * 16 → s.bscan.get p = ((b1.sdata.map ar.bytes).take p).flatten.length)
    (hd : ∀ k, k < (b1.sdata.map ar.bytes).flatten.length → s.data.get k = (b1.sdata.map ar.bytes).flatten.getD k 0#8) :
    ∃ strm : Arr (List Byte), OneOutcome (parFor (threads * 16) (unpackC ar)) (arrMem (serA s))
      (arrMem (serA { s with val := b'.value, bits := b'.bits, strm := strm })) (fun _ => ()) := by
  have hlen : b1.sdata.length = threads * 16 := by
    unfold Buffer.compressSer at h0
    simp only at h0
    split_ifs at h0 with hnp
    simp only [Option.bind_eq_bind, Option.bind_eq_some_iff, Option.some.injEq] at h0
    obtain ⟨parts, h0, rfl⟩ := h0
    have := (mapM_getElem h0).1
    rw [List.length_range] at this
    exact this
  have hw := fun p hp => compressSer_words (p := p) h0 hp
  generalize threads * 16 = np at hlen hw hn hs
  unfold Buffer.decompressSer at h
  simp only [Option.bind_eq_bind] at h
  rw [hz, Option.bind_some, Option.bind_eq_some_iff] at h
  obtain ⟨st', h, he⟩ := h
  injection he with he
  subst he
  rw [hb, foldlM_forLoop _ [], hlen] at h
  generalize hparts : b1.sdata = parts at *
  let M : (Arr α × Arr Word) × Nat → SerMem α := fun st => { s with
    val := st.1.1, bits := st.1.2,
    strm := ⟨s.strm.size, fun q => if q < st.2 then ar.bytes (parts.getD q []) else s.strm.get q⟩ }
  have hl : forLoop 0 np ((b.value, bits0), 0) (fun p (st : (Arr α × Arr Word) × Nat) =>
      ((parts.getD p []).foldlM (fun st (e : Nat × α) => scatter e.1 e.2 st) st.1).map (fun r => (r, p + 1))) = some (st', np) := by
    have : ∀ k r, forLoop 0 k (b.value, bits0) (fun p st => (parts.getD p []).foldlM
        (fun st (e : Nat × α) => scatter e.1 e.2 st) st) = some r →
        forLoop 0 k ((b.value, bits0), 0) (fun p (st : (Arr α × Arr Word) × Nat) =>
          ((parts.getD p []).foldlM (fun st (e : Nat × α) => scatter e.1 e.2 st) st.1).map (fun r => (r, p + 1))) =
          some (r, k) := by
      intro k
      induction k with
      | zero => intro r hr; injection hr with hr; subst hr; rfl
      | succ k ih =>
        intro r hr
        rw [forLoop_range, List.range_succ, List.foldlM_append, ← forLoop_range] at hr ⊢
        rw [Option.bind_eq_bind, Option.bind_eq_some_iff] at hr
        obtain ⟨r0, h1, h2⟩ := hr
        rw [ih r0 h1]
        simp only [List.foldlM_cons, List.foldlM_nil, Option.bind_eq_bind, Option.bind_some, Option.bind_eq_some_iff] at h2 ⊢
        obtain ⟨r1, h2, h3⟩ := h2
        injection h3 with h3
        subst h3
        rw [h2]
        exact ⟨_, rfl, rfl⟩
    exact this np st' h
  have o := (parFor_outcome_inv (n := np) (body := unpackC ar)
    (own := fun p => unpackOwn (wordLo b0.bits.size np p) (wordLo b0.bits.size np (p + 1)) p)
    (shared := fun l : SerArr × Nat => l.1 = .bscan ∨ l.1 = .nscan ∨ l.1 = .data)
    (mem := fun st => arrMem (serA (M st))) (fun p st => st.2 = p) ?_ ?_ ?_ rfl hl).1
  · refine ⟨⟨s.strm.size, fun q => if q < np then ar.bytes (parts.getD q []) else s.strm.get q⟩, ?_⟩
    refine Eq.mp ?_ o
    congr 1
    funext l
    obtain ⟨k, j⟩ := l
    cases k with
    | strm =>
      show (if j < 0 then ar.bytes (parts.getD j []) else s.strm.get j) = s.strm.get j
      rw [if_neg (Nat.not_lt_zero j)]
    | val => show b.value.get j = s.val.get j; rw [hv]
    | bits => show bits0.get j = s.bits.get j; rw [hbits]
    | _ => rfl
  · have mono : ∀ i j, i ≤ j → wordLo b0.bits.size np i ≤ wordLo b0.bits.size np j := by
      intro i j hij
      induction hij with
      | refl => exact Nat.le_refl _
      | step _ ih => exact Nat.le_trans ih (wordLo_mono _ _ _)
    rintro i j l _ _ (rfl | ⟨a0, a1, a2⟩ | ⟨a0, a1, a2⟩) (b | ⟨b0', b1', b2⟩ | ⟨b0', b1', b2⟩)
    · injection b
    · cases b0'
    · cases b0'
    · rw [b] at a0; cases a0
    · rcases Nat.lt_trichotomy i j with hij | hij | hij
      · have := mono (i + 1) j hij; omega
      · exact hij
      · have := mono (j + 1) i hij; omega
    · rw [b0'] at a0; cases a0
    · rw [b] at a0; cases a0
    · rw [b0'] at a0; cases a0
    · rcases Nat.lt_trichotomy i j with hij | hij | hij
      · have := mono (i + 1) j hij; omega
      · exact hij
      · have := mono (j + 1) i hij; omega
  · rintro i l _ (rfl | ⟨a, _⟩ | ⟨a, _⟩) (b | b | b) <;> first | (cases b) | (rw [a] at b; cases b)
  · rintro p hp ⟨st, _⟩ ⟨st1, k1⟩ rfl hg
    rename_i p
    rw [Option.map_eq_some_iff] at hg
    obtain ⟨r, hg, he⟩ := hg
    cases he
    refine ⟨rfl, ?_⟩
    have o1 : unpackOwn (wordLo b0.bits.size np p) (wordLo b0.bits.size np (p + 1)) p (.strm, p) := Or.inl rfl
    have ep : (parts.map ar.bytes).getD p [] = ar.bytes (parts.getD p []) := by
      rw [List.getD_eq_getElem?_getD, List.getD_eq_getElem?_getD, List.getElem?_map, List.getElem?_eq_getElem (by omega)]
      rfl
    unfold unpackC
    refine (Does.rdv (Or.inr (Or.inl rfl)) (v := pieceLo (parts.map ar.bytes) p) (hs p (by omega))).bind ?_
    refine (Does.rdv (Or.inr (Or.inl rfl)) (v := pieceLo (parts.map ar.bytes) (p + 1)) (hs (p + 1) hp)).bind ?_
    have lb := Does.forAt (own := unpackOwn (wordLo b0.bits.size np p) (wordLo b0.bits.size np (p + 1)) p)
      (shared := fun l : SerArr × Nat => l.1 = .bscan ∨ l.1 = .nscan ∨ l.1 = .data)
      (fun k => (ar.bytes (parts.getD p [])).take (k - pieceLo (parts.map ar.bytes) p))
      (fun _ => arrMem (serA (M (st, p)))) (body := fun k (acc : List Byte) => (do
        let x : Byte ← aload SerArr.data k
        pure (acc ++ [x]) : SerCode α (List Byte))) (pieceLo_mono (parts.map ar.bytes) (Nat.le_succ p))
      (by
        intro k h1 h2
        rw [pieceLo_succ, ep] at h2
        obtain ⟨j, rfl⟩ := Nat.le.dest h1
        have hj : j < (ar.bytes (parts.getD p [])).length := by omega
        refine (Does.rdv (k := SerArr.data) (τ := SerArr.Ty α) (Or.inr (Or.inr (Or.inr rfl))) (v := (ar.bytes (parts.getD p [])).getD j 0#8) ?_).bind ?_
        · refine Eq.trans (hd _ ?_) ?_
          · have := pieceLo_mono (parts.map ar.bytes) (p := p + 1) (q := np) hp
            rw [pieceLo_succ, ep, pieceLo_all (parts.map ar.bytes) (n := np) (by rw [List.length_map]; omega)] at this
            omega
          · rw [pieceLo_get _ _ _ _ (by rw [ep]; exact hj), ep]
        · have : pieceLo (parts.map ar.bytes) p + j + 1 - pieceLo (parts.map ar.bytes) p = j + 1 := by omega
          rw [this, Nat.add_sub_cancel_left]
          have : (ar.bytes (parts.getD p [])).take (j + 1) =
              (ar.bytes (parts.getD p [])).take j ++ [(ar.bytes (parts.getD p [])).getD j 0#8] := by
            generalize ar.bytes (parts.getD p []) = l at hj ⊢
            rw [List.take_add_one, List.getElem?_eq_getElem hj, List.getD_eq_getElem?_getD, List.getElem?_eq_getElem hj]
            rfl
          rw [this]
          exact Does.pure _ _)
    rw [Nat.sub_self, List.take_zero, pieceLo_succ, ep, Nat.add_sub_cancel_left, List.take_length] at lb
    rw [pieceLo_succ, ep]
    refine lb.bind ?_
    refine (Does.rdv (Or.inl o1) (v := ([] : List Byte)) ?_).bind ?_
    · refine Eq.trans ?_ (hst p)
      show (if p < p then ar.bytes (parts.getD p []) else s.strm.get p) = s.strm.get p
      rw [if_neg (Nat.lt_irrefl p)]
    refine ((Does.wrv o1 _ _).to (m'' := arrMem (serA (M (st, p + 1)))) ?_).bind ?_
    · funext l
      obtain ⟨n, j⟩ := l
      by_cases e : (n, j) = (SerArr.strm, p)
      · cases e
        rw [Function.update_self]
        show _ = if p < p + 1 then ar.bytes (parts.getD p []) else _
        rw [if_pos (Nat.lt_succ_self p)]; rfl
      · rw [Function.update_of_ne e]
        cases n with
        | strm =>
          have hj : j ≠ p := fun h => e (by rw [h])
          show (if j < p then _ else _) = if j < p + 1 then _ else _
          by_cases h1 : j < p
          · rw [if_pos h1, if_pos (by omega)]
          · rw [if_neg h1, if_neg (by omega)]
        | _ => rfl
    refine (Does.rdv (Or.inr (Or.inr (Or.inl rfl))) (v := pieceLo parts p) (hn p (by omega))).bind ?_
    refine (Does.rdv (Or.inr (Or.inr (Or.inl rfl))) (v := pieceLo parts (p + 1)) (hn (p + 1) hp)).bind ?_
    refine (Does.rdv (Or.inl o1) (v := ar.bytes (parts.getD p [])) ?_).bind ?_
    · show (if p < p + 1 then ar.bytes (parts.getD p []) else _) = _
      rw [if_pos (Nat.lt_succ_self p)]
    rw [pieceLo_succ, Nat.add_sub_cancel_left]
    rw [foldlM_forLoop _ (ar.get [] 0)] at hg
    refine Does.forUnit (mem := fun st => arrMem (serA (M (st, p + 1)))) ?_ hg
    rintro i _ hi ⟨v, bv⟩ st2 hg
    have e1 : (parts.getD p [])[i]? = some ((parts.getD p []).getD i (ar.get [] 0)) := by
      rw [List.getD_eq_getElem?_getD (l := parts.getD p []), List.getElem?_eq_getElem hi]; rfl
    have hm : parts.getD p [] ∈ parts := by
      rw [List.getD_eq_getElem?_getD, List.getElem?_eq_getElem (show p < parts.length by omega)]
      exact List.getElem_mem _
    have e2 : ar.get (ar.bytes (parts.getD p [])) i = (parts.getD p []).getD i (ar.get [] 0) := by
      have := (har _ hm i hi).symm.trans e1
      injection this
    dsimp only
    rw [e2]
    have hw := hw p hp _ (List.mem_of_getElem? e1)
    generalize (parts.getD p []).getD i (ar.get [] 0) = e at hg hw
    unfold scatter at hg
    simp only [Option.bind_eq_bind, Option.bind_eq_some_iff, Option.some.injEq] at hg
    obtain ⟨bv', g1, v', g2, rfl⟩ := hg
    have o2 : unpackOwn (wordLo b0.bits.size np p) (wordLo b0.bits.size np (p + 1)) p (.val, e.1) := Or.inr (Or.inl ⟨rfl, hw⟩)
    have o3 : unpackOwn (wordLo b0.bits.size np p) (wordLo b0.bits.size np (p + 1)) p (.bits, e.1 >>> 5) := by
      refine Or.inr (Or.inr ⟨rfl, ?_⟩)
      rw [Nat.shiftRight_eq_div_pow]
      exact hw
    refine (Does.st (k := SerArr.val) o2 (A := serA (M ((v, bv), p + 1))) (A' := serA (M ((v', bv), p + 1))) g2
      (by intro k' hk; cases k' <;> first | rfl | exact absurd rfl hk)).bind ?_
    exact Does.setBit (mem := fun b => arrMem (serA (M ((v', b), p + 1)))) g1
      (fun _ h => Does.ld (k := SerArr.bits) (Or.inl o3) (serA (M ((v', bv), p + 1))) h)
      (fun _ b' h => Does.st (k := SerArr.bits) o3 (A := serA (M ((v', bv), p + 1))) (A' := serA (M ((v', b'), p + 1))) h
        (by intro k' hk; cases k' <;> first | rfl | exact absurd rfl hk))

/-! ### A case that meets the hypotheses -/

/-- An archive with one byte of header, one byte before the first pair, and three bytes per pair. -/
def sampleArchive : ByteArchive Byte where
  head := [7#8]
  put done i v := (if done.isEmpty then [9#8] else []) ++ [BitVec.ofNat 8 (i / 256), BitVec.ofNat 8 i, v]
  get bytes k := ((bytes.getD (2 + 3 * k) 0#8).toNat * 256 + (bytes.getD (3 + 3 * k) 0#8).toNat, bytes.getD (4 + 3 * k) 0#8)

/-- A buffer of 640 elements of which 3, 35, 36 and 600 are set. -/
def sampleSer : Buffer Byte where
  uninit := false
  nnz := 4
  value := ⟨640, fun i => BitVec.ofNat 8 (i + 1)⟩
  bits := Arr.ofList 0#32 ([8#32, 24#32] ++ List.replicate 16 0#32 ++ [16777216#32, 0#32])
  cdata := Arr.ofList 0#8 []
  cidx := Arr.ofList 0 []
  sdata := []

/-- What `compress` makes of it with one thread (16 partitions of two words). -/
def sampleParts : List (List (Nat × Byte)) :=
  [[(3, 4#8), (35, 36#8), (36, 37#8)], [], [], [], [], [], [], [], [], [(600, 89#8)], [], [], [], [], [], []]

/-- The arrays before `compress`, or, with the result of `compress`, before `decompress`. -/
def sampleSerMem (received : Bool) : SerMem Byte where
  val := if received then ⟨640, fun _ => 0#8⟩ else sampleSer.value
  bits := if received then ((memsetZero 20 sampleSer.bits).getD sampleSer.bits) else sampleSer.bits
  strm := ⟨16, fun _ => []⟩
  nnz := ⟨16, fun _ => 77⟩
  nbytes := ⟨16, fun _ => 77⟩
  nscan := ⟨17, fun p => (sampleParts.take p).flatten.length⟩
  bscan := ⟨17, fun p => ((sampleParts.map sampleArchive.bytes).take p).flatten.length⟩
  data := ⟨30, fun k => (sampleParts.map sampleArchive.bytes).flatten.getD k 0#8⟩

theorem sampleSer_compress : ∃ b1, sampleSer.compressSer 1 = some b1 ∧ b1.sdata = sampleParts := by
  have h : (sampleSer.compressSer 1).map (fun b => b.sdata) = some sampleParts := by decide +kernel
  rw [Option.map_eq_some_iff] at h
  exact h

example : ∃ (strm : Arr (List Byte)) (nnz nbytes : Arr Nat), strm.get 9 = [7#8, 9#8, 2#8, 88#8, 89#8] ∧ nnz.get 0 = 3 ∧
    nbytes.get 0 = 11 ∧
    OneOutcome (parFor 16 (packC sampleArchive 20 16)) (arrMem (serA (sampleSerMem false)))
      (arrMem (serA { sampleSerMem false with strm := strm, nnz := nnz, nbytes := nbytes })) (fun _ => ()) := by
  obtain ⟨b1, h1, h2⟩ := sampleSer_compress
  obtain ⟨strm, nnz, nbytes, _, h3, h4⟩ := pack_tasks sampleArchive h1 (sampleSerMem false) rfl rfl (fun _ => rfl)
  rw [h2] at h3
  exact ⟨strm, nnz, nbytes, (h3 9 (by decide)).1.trans (by decide +kernel), (h3 0 (by decide)).2.1,
    (h3 0 (by decide)).2.2.trans (by decide +kernel), h4⟩

example : ∃ (data : Arr Byte) (strm : Arr (List Byte)), data.get 2 = 37#8 ∧ data.get 3 = 7#8 ∧
    OneOutcome (parFor 3 (flushC : Nat → SerCode Byte Unit))
      (arrMem (serA { sampleSerMem false with
        strm := Arr.ofList [] [[1#8, 2#8], [], [37#8, 7#8]], nbytes := Arr.ofList 0 [2, 0, 2], bscan := Arr.ofList 0 [0, 2, 2] }))
      (arrMem (serA { sampleSerMem false with
        nbytes := Arr.ofList 0 [2, 0, 2], bscan := Arr.ofList 0 [0, 2, 2], data := data, strm := strm })) (fun _ => ()) := by
  obtain ⟨data, strm, _, h1, h2⟩ := flush_tasks (α := Byte) (np := 3) (ps := [[1#8, 2#8], [], [37#8, 7#8]]) rfl
    { sampleSerMem false with
      strm := Arr.ofList [] [[1#8, 2#8], [], [37#8, 7#8]], nbytes := Arr.ofList 0 [2, 0, 2], bscan := Arr.ofList 0 [0, 2, 2] }
    (by decide) (by decide) (by decide)
  exact ⟨data, strm, h1 2, h1 3, h2⟩

example : ∃ (b' : Buffer Byte) (strm : Arr (List Byte)), (sampleSerMem true).val.get 36 = 0#8 ∧ b'.value.get 36 = 37#8 ∧
    OneOutcome (parFor 16 (unpackC sampleArchive)) (arrMem (serA (sampleSerMem true)))
      (arrMem (serA { sampleSerMem true with val := b'.value, bits := b'.bits, strm := strm })) (fun _ => ()) := by
  obtain ⟨b1, h1, h2⟩ := sampleSer_compress
  have h : (Buffer.decompressSer { sampleSer with value := ⟨640, fun _ => 0#8⟩, sdata := sampleParts }).map
      (fun b => b.value.get 36) = some 37#8 := by decide +kernel
  have hz : (memsetZero 20 sampleSer.bits).isSome := by decide +kernel
  rw [Option.map_eq_some_iff] at h
  obtain ⟨b', h3, h4⟩ := h
  obtain ⟨bits0, hz⟩ := Option.isSome_iff_exists.mp hz
  obtain ⟨strm, h5⟩ := unpack_tasks sampleArchive
    (b := { sampleSer with value := ⟨640, fun _ => 0#8⟩, sdata := sampleParts }) h1 (by rw [h2]; decide +kernel) (by rw [h2]) hz h3 (sampleSerMem true) rfl
    (by show (memsetZero 20 sampleSer.bits).getD sampleSer.bits = _; rw [hz]; rfl) (fun _ => rfl) (fun p _ => by rw [h2]; rfl)
    (fun p _ => by rw [h2]; rfl) (fun k _ => by rw [h2]; rfl)
  exact ⟨b', strm, rfl, h4, h5⟩

end GraphMat
