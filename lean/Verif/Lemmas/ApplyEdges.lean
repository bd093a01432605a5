import Verif.Lemmas.App
import Verif.Model.ApplyEdges

namespace GraphMat

variable {V E : Type}

/-- Some columns with the value of every entry (row `r`, column `c`) replaced by `g r c value`. -/
def mapCols (g : Nat → Nat → E → E) (C : List (Col E)) : List (Col E) :=
  C.map (fun c => (c.1, c.2.map (fun e => (e.1, g e.1 c.1 e.2))))

theorem ents_flat (C : List (Col E)) : ents C = (flat C).map (fun x => (x.1, x.2.2)) := by
  unfold ents flat
  rw [List.map_flatMap]
  congr 1
  funext c
  rw [List.map_map]
  exact (map_id_of (fun _ _ => rfl)).symm

theorem flat_mapCols (g : Nat → Nat → E → E) (C : List (Col E)) :
    flat (mapCols g C) = (flat C).map (fun x => (x.1, x.2.1, g x.1 x.2.1 x.2.2)) := by
  unfold flat mapCols
  rw [List.map_flatMap, List.flatMap_map]
  congr 1
  funext c
  simp [Function.comp_def]

theorem mapCols_length (g : Nat → Nat → E → E) (C : List (Col E)) : (mapCols g C).length = C.length := by
  unfold mapCols; rw [List.length_map]

theorem ents_mapCols_length (g : Nat → Nat → E → E) (C : List (Col E)) :
    (ents (mapCols g C)).length = (ents C).length := by
  rw [← flat_length, flat_mapCols, List.length_map, flat_length]

theorem clen_mapCols (g : Nat → Nat → E → E) (C : List (Col E)) (j : Nat) : clen (mapCols g C) j = clen C j := by
  unfold clen mapCols
  rw [← List.map_take, List.map_map]
  congr 1
  apply List.map_congr_left
  intro c _
  simp

theorem eoff_mapCols (g : Nat → Nat → E → E) (P : Nat → List (Col E)) (p : Nat) :
    eoff (fun q => mapCols g (P q)) p = eoff P p :=
  psum_congr (fun q _ => ents_mapCols_length g (P q))

theorem coff_mapCols (g : Nat → Nat → E → E) (P : Nat → List (Col E)) (p : Nat) :
    coff (fun q => mapCols g (P q)) p = coff P p :=
  psum_congr (fun q _ => by rw [mapCols_length])

theorem allEnts_mapCols (g : Nat → Nat → E → E) (np : Nat) (P : Nat → List (Col E)) :
    allEnts np (fun q => mapCols g (P q)) = (allEnts np P).map (fun x => (x.1, x.2.1, g x.1 x.2.1 x.2.2)) := by
  unfold allEnts
  rw [List.map_flatMap]
  congr 1
  funext p
  exact flat_mapCols g (P p)

theorem flat_getElem {C : List (Col E)} {j k : Nat} (hj : j < C.length) (hk : k < C[j].2.length) :
    (flat C)[clen C j + k]? = some (C[j].2[k].1, C[j].1, C[j].2[k].2) := by
  induction C generalizing j with
  | nil => simp at hj
  | cons c C ih =>
    have e : flat (c :: C) = c.2.map (fun e => (e.1, c.1, e.2)) ++ flat C := rfl
    cases j with
    | zero =>
      rw [e, clen_zero, Nat.zero_add]
      simp only [List.getElem_cons_zero] at hk ⊢
      rw [List.getElem?_append_left (by simpa using hk)]
      simp [hk]
    | succ j =>
      simp only [List.getElem_cons_succ] at hk ⊢
      have hc : clen (c :: C) (j + 1) = c.2.length + clen C j := by
        unfold clen; simp
      rw [e, hc, Nat.add_assoc, List.getElem?_append_right (by simp)]
      simp only [List.length_map, Nat.add_sub_cancel_left]
      exact ih (by simpa using hj) hk

theorem allEnts_getElem {np p k : Nat} {P : Nat → List (Col E)} (hp : p < np) (hk : k < (flat (P p)).length) :
    (allEnts np P)[eoff P p + k]? = (flat (P p))[k]? := by
  induction np with
  | zero => omega
  | succ np ih =>
    have e : allEnts (np + 1) P = allEnts np P ++ flat (P np) := by
      unfold allEnts; rw [List.range_succ, List.flatMap_append]; simp
    rw [e]
    by_cases hpn : p = np
    · subst hpn
      rw [List.getElem?_append_right (by rw [allEnts_length]; omega), allEnts_length, Nat.add_sub_cancel_left]
    · have hlt : eoff P p + k < (allEnts np P).length := by
        rw [allEnts_length]
        have h1 : eoff P (p + 1) ≤ eoff P np := psum_mono _ (by omega)
        have h2 : eoff P (p + 1) = eoff P p + (ents (P p)).length := rfl
        rw [flat_length] at hk
        omega
      rw [List.getElem?_append_left hlt]
      exact ih (by omega)

/-- `my_applyedges` replaces the value of every stored entry once. -/
theorem Tile.Rep.applyVals {t : Tile E} {P : Nat → List (Col E)} (h : t.Rep P) {xs ys : Arr V × Arr Word}
    (hx : POk t.n xs) (hy : POk t.m ys) {xm ym : Nat → V} (hxm : ∀ c, c < t.n → pview t.n xs c = some (xm c))
    (hym : ∀ r, r < t.m → pview t.m ys r = some (ym r)) (op : E → V → V → E) :
    ∃ vals, t.applyVals op xs.1 ys.1 ys.2 = some vals ∧
      ({ t with vals := vals } : Tile E).Rep (fun p => mapCols (fun r c e => op e (xm c) (ym r)) (P p)) := by
  obtain ⟨N, hN⟩ : ∃ N : Nat → E, ∀ q x, (allEnts t.np P)[q]? = some x → N q = op x.2.2 (xm x.2.1) (ym x.1) :=
    ⟨fun q => match (allEnts t.np P)[q]? with
      | some x => op x.2.2 (xm x.2.1) (ym x.1)
      | none => t.vals.get q, by intro q x hq; simp only [hq]⟩
  obtain ⟨vals, h1, h2, h3⟩ := forLoop_inv (lo := 0) (hi := t.np) (s := t.vals)
    (body := t.applyPart op xs.1 ys.1 ys.2)
    (fun p (vals : Arr E) => vals.size = t.nnz ∧ ∀ q, vals.get q = if q < eoff P p then N q else t.vals.get q)
    (Nat.zero_le _) ⟨h.valsz, by intro q; rw [if_neg (by simp [eoff, psum])]⟩ (by
    rintro p v0 _ hp ⟨i1, i2⟩
    have hen : eoff P (p + 1) = eoff P p + (ents (P p)).length := rfl
    have htot : eoff P (p + 1) ≤ t.nnz := by rw [h.nnz]; exact psum_mono _ (by omega)
    unfold Tile.applyPart
    simp only [Option.bind_eq_bind]
    rw [(h.cs p hp).1, Option.bind_some, (h.ep p hp).1, Option.bind_some, (h.cs p hp).2, Option.bind_some, coff_succ]
    obtain ⟨v1, j1, j2, j3⟩ := forLoop_inv (lo := 0) (hi := (P p).length) (s := v0)
      (body := fun j vals => (t.colIdx.read (coff P p + j)).bind fun col =>
        (t.colPtrs.read (coff P p + j)).bind fun a => (t.colPtrs.read (coff P p + j + 1)).bind fun b =>
        forLoop a b vals (fun nz vals => (t.rowInds.read (eoff P p + nz)).bind fun row =>
          applyEdge op xs.1 ys.1 ys.2 col row (eoff P p + nz) vals))
      (fun j (vals : Arr E) => vals.size = t.nnz ∧
        ∀ q, vals.get q = if q < eoff P p + clen (P p) j then N q else t.vals.get q)
      (Nat.zero_le _) ⟨i1, by intro q; rw [clen_zero]; exact i2 q⟩ (by
      rintro j v1 _ hj ⟨k1, k2⟩
      rw [h.col p hp j hj, Option.bind_some, h.ptr p hp j (by omega), Option.bind_some, Nat.add_assoc,
        h.ptr p hp (j + 1) (by omega), Option.bind_some]
      have hcs := clen_succ hj
      refine forLoop_inv (fun nz (vals : Arr E) => vals.size = t.nnz ∧
        ∀ q, vals.get q = if q < eoff P p + nz then N q else t.vals.get q) (by omega) ⟨k1, k2⟩ ?_
      rintro nz v2 hlo hhi ⟨l1, l2⟩
      obtain ⟨k, rfl⟩ : ∃ k, nz = clen (P p) j + k := ⟨nz - clen (P p) j, by omega⟩
      have hk : k < (P p)[j].2.length := by omega
      have he := ents_getElem hj hk
      rw [List.getElem?_eq_some_iff] at he
      obtain ⟨he1, he2⟩ := he
      have hf := flat_getElem hj hk
      have hrow := h.row p hp _ he1
      have hval := h.val p hp _ he1
      rw [he2] at hrow hval
      have hcol : (P p)[j].1 < t.n := h.cols p hp _ (List.getElem_mem hj)
      have hrows := h.rows p hp _ (List.getElem_mem hj) _ (List.getElem_mem hk)
      have hrm : (P p)[j].2[k].1 < t.m := by
        have : t.rp.get (p + 1) ≤ t.rp.get t.np := by
          have hmono : ∀ d, p + 1 + d ≤ t.np → t.rp.get (p + 1) ≤ t.rp.get (p + 1 + d) := by
            intro d
            induction d with
            | zero => intro _; exact Nat.le_refl _
            | succ d ih => intro hd; exact Nat.le_trans (ih (by omega)) (h.mono _ (by omega))
          have := hmono (t.np - (p + 1)) (by omega)
          rwa [show p + 1 + (t.np - (p + 1)) = t.np by omega] at this
        rw [h.final (by omega)] at this
        omega
      have hA : (allEnts t.np P)[eoff P p + (clen (P p) j + k)]? =
          some ((P p)[j].2[k].1, (P p)[j].1, (P p)[j].2[k].2) := by
        rw [allEnts_getElem hp (by rw [flat_length]; exact he1), hf]
      have hy' := hym _ hrm
      unfold pview at hy'
      have hx' := hxm _ hcol
      unfold pview at hx'
      split at hy'
      · next hyb =>
        split at hx'
        · next hxb =>
          injection hx' with hx'
          injection hy' with hy'
          rw [hrow, Option.bind_some]
          unfold applyEdge
          simp only [Option.bind_eq_bind]
          rw [getBitvector_eq (by rw [hy.bits]; exact word_lt hrm), Option.bind_some, hyb.2]
          simp only [Bool.not_true, Bool.false_eq_true, if_false]
          have hi : eoff P p + (clen (P p) j + k) < v2.size := by omega
          rw [Arr.read_some (by rw [hx.value]; exact hcol), Option.bind_some,
            Arr.read_some (by rw [hy.value]; exact hrm), Option.bind_some, Arr.read_some hi, Option.bind_some,
            Arr.write_some hi]
          refine ⟨_, rfl, l1, ?_⟩
          intro q
          rw [Arr.upd_get]
          have hv2 : v2.get (eoff P p + (clen (P p) j + k)) = (P p)[j].2[k].2 := by
            rw [l2, if_neg (by omega)]
            rw [Arr.read_eq_some] at hval
            exact hval.2
          by_cases hq : q = eoff P p + (clen (P p) j + k)
          · subst hq
            rw [if_pos rfl, if_pos (by omega), hN _ _ hA, hv2, hx', hy']
          · rw [if_neg hq, l2]
            by_cases hq2 : q < eoff P p + (clen (P p) j + k)
            · rw [if_pos hq2, if_pos (by omega)]
            · rw [if_neg hq2, if_neg (by omega)]
        · cases hx'
      · cases hy')
    refine ⟨v1, j1, j2, ?_⟩
    intro q
    rw [j3, clen_all, hen])
  refine ⟨vals, h1, ?_⟩
  have hmem : ∀ p (C : Col E), C ∈ mapCols (fun r c e => op e (xm c) (ym r)) (P p) →
      ∃ C0 ∈ P p, C = (C0.1, C0.2.map (fun e => (e.1, op e.2 (xm C0.1) (ym e.1)))) := by
    intro p C hC
    unfold mapCols at hC
    rw [List.mem_map] at hC
    obtain ⟨C0, h0, h1⟩ := hC
    exact ⟨C0, h0, h1.symm⟩
  refine { ep := ?_, cs := ?_, rp := h.rp, col := ?_, ptr := ?_, row := ?_, val := ?_, nnz := ?_, valsz := h2,
           mono := h.mono, first := h.first, final := h.final, align := h.align, incr := ?_, full := ?_,
           cols := ?_, rows := ?_, noEdges := h.noEdges, sizes := ?_ }
  · intro p hp; rw [eoff_mapCols, eoff_mapCols]; exact h.ep p hp
  · intro p hp; rw [coff_mapCols, coff_mapCols]; exact h.cs p hp
  · intro p hp j hj
    rw [mapCols_length] at hj
    rw [coff_mapCols]
    show t.colIdx.read _ = _
    rw [h.col p hp j hj]
    simp [mapCols]
  · intro p hp j hj
    rw [mapCols_length] at hj
    rw [coff_mapCols, clen_mapCols]
    exact h.ptr p hp j hj
  · intro p hp k hk
    rw [ents_mapCols_length] at hk
    rw [eoff_mapCols]
    show t.rowInds.read _ = _
    rw [h.row p hp k hk]
    congr 1
    simp only [ents_flat, flat_mapCols, List.getElem_map]
  · intro p hp k hk
    rw [ents_mapCols_length] at hk
    rw [eoff_mapCols]
    have hen : eoff P (p + 1) = eoff P p + (ents (P p)).length := rfl
    have hp' : p < t.np := hp
    have htot : eoff P (p + 1) ≤ eoff P t.np := psum_mono _ hp'
    have hnn := h.nnz
    show vals.read _ = _
    rw [Arr.read_some (by omega), h3, if_pos (by omega)]
    congr 1
    have hfl : k < (flat (P p)).length := by rw [flat_length]; exact hk
    rw [hN (eoff P p + k) (flat (P p))[k] (by rw [allEnts_getElem hp hfl, List.getElem?_eq_getElem hfl])]
    simp only [ents_flat, flat_mapCols, List.getElem_map]
  · show t.nnz = _
    rw [eoff_mapCols]; exact h.nnz
  · intro p hp
    unfold mapCols
    rw [List.pairwise_map]
    exact h.incr p hp
  · intro p hp C hC
    obtain ⟨C0, a, rfl⟩ := hmem p C hC
    simpa using h.full p hp C0 a
  · intro p hp C hC
    obtain ⟨C0, a, rfl⟩ := hmem p C hC
    exact h.cols p hp C0 a
  · intro p hp C hC e he
    obtain ⟨C0, a, rfl⟩ := hmem p C hC
    rw [List.mem_map] at he
    obtain ⟨e0, b, rfl⟩ := he
    exact h.rows p hp C0 a e0 b
  · intro hp
    rw [coff_mapCols]
    exact h.sizes hp

theorem Tile.Rep.applyEdges {t : Tile E} {P : Nat → List (Col E)} (h : t.Rep P) {s1 s2 : Segment V}
    (w1 : s1.WF) (r1 : t.nnz ≠ 0 → s1.Ready) (w2 : s2.WF) (r2 : t.nnz ≠ 0 → s2.Ready) (c1 : s1.capacity = t.n) (c2 : s2.capacity = t.m)
    {xm ym : Nat → V} (hxm : ∀ c, c < t.n → s1.view c = some (xm c)) (hym : ∀ r, r < t.m → s2.view r = some (ym r))
    (op : E → V → V → E) :
    ∃ t' P', t.applyEdges op s1 s2 = some t' ∧ t'.Rep P' ∧ t'.m = t.m ∧ t'.n = t.n ∧ t'.nnz = t.nnz ∧
      allEnts t'.np P' = (allEnts t.np P).map (fun x => (x.1, x.2.1, op x.2.2 (xm x.2.1) (ym x.1))) := by
  unfold Tile.applyEdges
  by_cases h0 : t.nnz = 0
  · rw [if_pos h0]
    have he : allEnts t.np P = [] := by
      rw [← List.length_eq_zero_iff, allEnts_length, ← h.nnz, h0]
    exact ⟨t, P, rfl, h, rfl, rfl, rfl, by rw [he]; rfl⟩
  · rw [if_neg h0]
    obtain ⟨b1, x1, x2, x3⟩ := Segment.ready_pview w1 (r1 h0)
    obtain ⟨b2, y1, y2, y3⟩ := Segment.ready_pview w2 (r2 h0)
    rw [c1] at x2 x3
    rw [c2] at y2 y3
    obtain ⟨vals, v1, v2⟩ := h.applyVals (xs := (b1.value, b1.bits)) (ys := (b2.value, b2.bits)) x2 y2 (xm := xm) (ym := ym)
      (by intro c hc; rw [x3]; exact hxm c hc) (by intro r hr; rw [y3]; exact hym r hr) op
    simp only [Option.bind_eq_bind]
    rw [x1, Option.bind_some, y1, Option.bind_some, v1, Option.bind_some]
    exact ⟨_, _, rfl, v2, rfl, rfl, rfl, allEnts_mapCols _ _ _⟩

/-- The loop over the tiles of a rank replaces its tiles. -/
theorem RMat.applyEdges_spec {m n ntx nty nrank r : Nat} {ow : Nat → Nat → Nat} {T T' : Nat → Nat → Tile E}
    {vp : SpVec V} {op : E → V → V → E} (hsz : ntx ≤ vp.segs.size) (hsz' : nty ≤ vp.segs.size)
    (hT : ∀ i j, i < nty → j < ntx → ow i j = r →
      (T i j).applyEdges op (vp.segs.get j) (vp.segs.get i) = some (T' i j)) :
    (matOf m n ntx nty nrank ow T r).applyEdges op vp = some (matOf m n ntx nty nrank ow T' r) := by
  let Mk : (Nat → Nat → Prop) → RMat E → Prop := fun D M => ∃ X, M = { matOf m n ntx nty nrank ow T r with tiles := X } ∧
    ∀ a b, (D a b → a < nty → b < ntx → X a b = (matOf m n ntx nty nrank ow T' r).tiles a b) ∧
      (¬ (D a b ∧ a < nty ∧ b < ntx) → X a b = (matOf m n ntx nty nrank ow T r).tiles a b)
  obtain ⟨M, h1, X, hX, h2⟩ := forLoop_inv (lo := 0) (hi := nty) (s := matOf m n ntx nty nrank ow T r)
    (body := fun i M' => forLoop 0 ntx M' (fun j M' => do
      let o ← (matOf m n ntx nty nrank ow T r).node i j
      if o = r then
        let t ← M'.tiles i j
        let s1 ← vp.segs.read j
        let s2 ← vp.segs.read i
        let t' ← t.applyEdges op s1 s2
        some { M' with tiles := fun a b => if a = i ∧ b = j then some t' else M'.tiles a b }
      else some M'))
    (fun i M => Mk (fun a _ => a < i) M) (Nat.zero_le _)
    ⟨_, rfl, fun a b => ⟨by intro h; omega, fun _ => rfl⟩⟩ (by
      rintro i M1 _ hi hM1
      obtain ⟨M2, k1, X, hX, k2⟩ := forLoop_inv (lo := 0) (hi := ntx) (s := M1)
        (body := fun j M' => do
          let o ← (matOf m n ntx nty nrank ow T r).node i j
          if o = r then
            let t ← M'.tiles i j
            let s1 ← vp.segs.read j
            let s2 ← vp.segs.read i
            let t' ← t.applyEdges op s1 s2
            some { M' with tiles := fun a b => if a = i ∧ b = j then some t' else M'.tiles a b }
          else some M')
        (fun j M => Mk (fun a b => a < i ∨ (a = i ∧ b < j)) M) (Nat.zero_le _) (by
          obtain ⟨X, hX, k⟩ := hM1
          exact ⟨X, hX, fun a b => ⟨fun h => (k a b).1 (by omega), fun h => (k a b).2 (by omega)⟩⟩) (by
          rintro j M2 _ hj ⟨X, rfl, k⟩
          by_cases ho : ow i j = r
          · have e1 : X i j = some (T i j) := by
              rw [(k i j).2 (by omega)]
              show (if _ then _ else _) = _
              rw [if_pos ⟨hi, hj, ho⟩]
            refine ⟨_, ?_, fun a b => if a = i ∧ b = j then some (T' i j) else X a b, rfl, ?_⟩
            · show (if ow i j = r then _ else _) = _
              rw [if_pos ho]
              simp only [Option.bind_eq_bind]
              rw [e1, Option.bind_some, Arr.read_some (by omega), Option.bind_some, Arr.read_some (by omega),
                Option.bind_some, hT i j hi hj ho, Option.bind_some]
            · intro a b
              by_cases hab : a = i ∧ b = j
              · obtain ⟨rfl, rfl⟩ := hab
                refine ⟨fun _ _ _ => ?_, fun h => absurd ⟨.inr ⟨rfl, by omega⟩, hi, hj⟩ h⟩
                show (if a = a ∧ b = b then some (T' a b) else X a b) = if _ then _ else _
                rw [if_pos ⟨rfl, rfl⟩]
                rw [if_pos ⟨hi, hj, ho⟩]
              · show (_ → _ → _ → (if a = i ∧ b = j then some (T' i j) else X a b) = _) ∧
                  (_ → (if a = i ∧ b = j then some (T' i j) else X a b) = _)
                rw [if_neg hab]
                exact ⟨fun h => (k a b).1 (by omega), fun h => (k a b).2 (by omega)⟩
          · refine ⟨_, ?_, X, rfl, ?_⟩
            · show (if ow i j = r then _ else _) = _
              rw [if_neg ho]
            · intro a b
              by_cases hab : a = i ∧ b = j
              · obtain ⟨rfl, rfl⟩ := hab
                have e : X a b = none := by
                  rw [(k a b).2 (by omega)]
                  show (if _ then _ else _) = _
                  rw [if_neg (by omega)]
                refine ⟨fun _ _ _ => ?_, fun h => absurd ⟨.inr ⟨rfl, by omega⟩, hi, hj⟩ h⟩
                rw [e]
                show _ = if _ then _ else _
                rw [if_neg (by omega)]
              · exact ⟨fun h => (k a b).1 (by omega), fun h => (k a b).2 (by omega)⟩)
      refine ⟨M2, k1, X, hX, ?_⟩
      intro a b
      exact ⟨fun h h1 h2 => (k2 a b).1 (by omega) h1 h2, fun h => (k2 a b).2 (by omega)⟩)
  unfold RMat.applyEdges
  refine h1.trans ?_
  rw [hX]
  have : X = (matOf m n ntx nty nrank ow T' r).tiles := by
    funext a b
    by_cases hab : a < nty ∧ b < ntx
    · exact (h2 a b).1 hab.1 hab.1 hab.2
    · rw [(h2 a b).2 (by omega)]
      show (if _ then _ else _) = if _ then _ else _
      rw [if_neg (by omega), if_neg (by omega)]
  rw [this]
  rfl

/-- An edge with its value replaced by `op value (property of dst) (property of src)`. -/
def mapEdge (op : E → V → V → E) (vm : Nat → V) (e : Edge E) : Edge E :=
  { e with val := op e.val (vm e.dst.toNat) (vm e.src.toNat) }

theorem rowcolPairs_spec {n nrank : Nat} {ow : Nat → Nat → Nat} {T : Nat → Nat → Tile E} (r0 : Nat) {k : Nat}
    (how : ∀ i j, ow i j < nrank) :
    ∃ L, rankPairs k (matOf n n k k nrank ow T r0).rowcolRanks = some L ∧ L.Nodup ∧
      (∀ jr, jr ∈ L ↔ jr.1 < k ∧ ∃ i, i < k ∧ (ow i jr.1 = jr.2 ∨ ow jr.1 i = jr.2)) ∧
      ∀ jr ∈ L, jr.1 < k ∧ jr.2 < nrank := by
  obtain ⟨L, h1, h2, h3⟩ := rankPairs_spec (k := k) (ranks := (matOf n n k k nrank ow T r0).rowcolRanks)
    (S := fun j => rankSet (rankSet ((List.range k).map (fun i => ow j i)) ++
      rankSet ((List.range k).map (fun i => ow i j)))) (by
      intro j _
      unfold RMat.rowcolRanks RMat.rowRanks RMat.colRanks
      have e1 : (List.range k).mapM (fun i => (matOf n n k k nrank ow T r0).node j i) =
          some ((List.range k).map (fun i => ow j i)) := mapM_some (fun _ _ => rfl)
      have e2 : (List.range k).mapM (fun i => (matOf n n k k nrank ow T r0).node i j) =
          some ((List.range k).map (fun i => ow i j)) := mapM_some (fun _ _ => rfl)
      show Option.bind (Option.bind ((List.range k).mapM (fun i => (matOf n n k k nrank ow T r0).node j i)) _)
        (fun row => Option.bind (Option.bind ((List.range k).mapM (fun i => (matOf n n k k nrank ow T r0).node i j)) _) _) = _
      rw [e1, e2]
      rfl) (fun j => (rankSet_spec _).1)
  have h4 : ∀ jr, jr ∈ L ↔ jr.1 < k ∧ ∃ i, i < k ∧ (ow i jr.1 = jr.2 ∨ ow jr.1 i = jr.2) := by
    intro jr
    rw [h3, (rankSet_spec _).2, List.mem_append, (rankSet_spec _).2, (rankSet_spec _).2, List.mem_map, List.mem_map]
    simp only [List.mem_range]
    constructor
    · rintro ⟨a, ⟨i, b, c⟩ | ⟨i, b, c⟩⟩
      · exact ⟨a, i, b, .inr c⟩
      · exact ⟨a, i, b, .inl c⟩
    · rintro ⟨a, i, b, c | c⟩
      · exact ⟨a, .inr ⟨i, b, c⟩⟩
      · exact ⟨a, .inl ⟨i, b, c⟩⟩
  refine ⟨L, h1, h2, h4, ?_⟩
  intro jr hjr
  obtain ⟨a, i, _, e⟩ := (h4 jr).mp hjr
  refine ⟨a, ?_⟩
  rcases e with e | e <;> (rw [← e]; exact how _ _)

/-- `ApplyEdges` on all ranks. -/
theorem Segment.view_ready {s : Segment V} {i : Nat} {x : V} (h : s.view i = some x) : s.Ready := by
  unfold Segment.view at h
  cases hp : s.props with
  | none => rw [hp] at h; cases h
  | some b =>
    rw [hp] at h
    refine ⟨b, hp, ?_⟩
    cases hu : b.uninit with
    | false => rfl
    | true =>
      unfold Buffer.view at h
      simp only [hu, if_true] at h
      cases h

/-- A vector after exchange and release of the copies, whether or not all its segments have buffers. -/
theorem broadcast_release {n nseg nrank : Nat} {d d1 : DVec V} (hr : 0 < nrank) {pairs : List (Nat × Nat)} (h1 : d1.WF n nseg nrank)
    (hb : ∀ r p, r < nrank → p < nseg → BCell nrank pairs d (r, p) (d1.cell (r, p))) :
    ∃ d2 : DVec V, d1.freeNonOwned nseg = some d2 ∧ d2.WF n nseg nrank ∧ (d.Ready nseg nrank → d2.Ready nseg nrank) ∧
      ∀ w, d2.sem n nseg nrank w = d.sem n nseg nrank w := by
  obtain ⟨d2, e1, e2, e3⟩ := DVec.freeNonOwned_spec h1 hr
  have hown : ∀ p, p < nseg → d2.own nrank p = d1.own nrank p := by
    intro p hp
    have := e3 (p % nrank) p (Nat.mod_lt _ hr) hp
    rw [if_pos rfl] at this
    exact this
  refine ⟨d2, e1, e2, ?_, ?_⟩
  · intro hrdy p hp
    rw [hown p hp]
    exact ((hb (p % nrank) p (Nat.mod_lt _ hr) hp).own rfl).2 (hrdy p hp)
  · intro w
    unfold DVec.sem
    cases hg : getPartition n nseg w with
    | none => rfl
    | some p =>
      have hp := (getPartition_some hg).1
      simp only
      rw [hown p hp]
      have := ((hb (p % nrank) p (Nat.mod_lt _ hr) hp).own rfl).1
      exact congrFun this _

theorem DMat.applyEdges_spec {D : DMat E} {n k nrank : Nat} {ow : Nat → Nat → Nat} {T : Nat → Nat → Tile E}
    {P : Nat → Nat → Nat → List (Col E)} {all : List (Edge E)} (h : D.Rep n n k k nrank ow T P all)
    (hk : 0 < k) (hr : 0 < nrank) (how : ∀ i j, ow i j < nrank) {threads : Nat} (hth : 0 < threads)
    (ser : Bool) (g : Nat → Nat → Fresh V) {vp : DVec V} (hv : vp.WF n k nrank) {vm : Nat → V}
    (hvm : ∀ w, 1 ≤ w → w ≤ n → vp.sem n k nrank w = some (vm w)) (op : E → V → V → E) :
    ∃ (D' : DMat E) (vp' : DVec V) (T' : Nat → Nat → Tile E) (P' : Nat → Nat → Nat → List (Col E)),
      D.applyEdges ser g threads nrank op vp = some (D', vp') ∧
      D'.Rep n n k k nrank ow T' P' (all.map (mapEdge op vm)) ∧
      vp'.WF n k nrank ∧ (vp.Ready k nrank → vp'.Ready k nrank) ∧ (∀ w, vp'.sem n k nrank w = vp.sem n k nrank w) := by
  obtain ⟨cp, c1, c2, c3, c4⟩ := rowcolPairs_spec (n := n) (T := T) (k := k) 0 how
  obtain ⟨v1, b1, b2, b3⟩ := DVec.broadcast_spec hv hr ser hth g c2 c4
  obtain ⟨v2, f1, f2, f3, f4⟩ := broadcast_release hr b2 b3
  have hview : ∀ p, p < k → ∀ i, i < bnd n k (p + 1) - bnd n k p →
      (vp.own nrank p).view i = some (vm (bnd n k p + i + 1)) := by
    intro p hp i hi
    have hle := bnd_le (n := n) (nseg := k) (i := p + 1)
    have := hvm (bnd n k p + i + 1) (by omega) (by omega)
    rw [DVec.sem_of (p := p) (getPartition_iff.mpr ⟨hp, by omega, by omega⟩)] at this
    rw [show bnd n k p + i + 1 - bnd n k p - 1 = i by omega] at this
    exact this
  have huse : ∀ r p, p < k → BCell nrank cp vp (r, p) (v1.cell (r, p)) → (p, r) ∈ cp → (v1.cell (r, p)).view = (vp.own nrank p).view := by
    intro r p hp hb hm
    by_cases ho : p % nrank = r
    · have e : vp.own nrank p = vp.cell (r, p) := by unfold DVec.own DVec.cell; rw [ho]
      rw [(hb.own ho).1, e]
    · exact (hb.other (mem_foreign.mpr ⟨hm, ho⟩)).2
  have hex : ∀ i j, ∃ t' P', i < k → j < k →
      (T i j).applyEdges op (v1.cell (ow i j, j)) (v1.cell (ow i j, i)) = some t' ∧
      TileHolds n n k k i j (all.map (mapEdge op vm)) t' P' := by
    intro i j
    by_cases hij : i < k ∧ j < k
    · obtain ⟨hi, hj⟩ := hij
      have ht := h.tile i j hi hj
      have ho := how i j
      have u2 := huse (ow i j) j hj (b3 (ow i j) j ho hj) ((c3 _).mpr ⟨hj, i, hi, .inl rfl⟩)
      have w2 := huse (ow i j) i hi (b3 (ow i j) i ho hi) ((c3 _).mpr ⟨hi, j, hj, .inr rfl⟩)
      have hpos : (T i j).nnz ≠ 0 → 0 < bnd n k (j + 1) - bnd n k j ∧ 0 < bnd n k (i + 1) - bnd n k i := by
        intro h0
        rw [ht.2.2.2.1] at h0
        obtain ⟨e, he⟩ := List.exists_mem_of_length_pos (Nat.pos_of_ne_zero h0)
        rw [List.mem_filter] at he
        obtain ⟨z1, z2, z3, z4⟩ := tileOf_inTile hk hk (h.inMat e he.1) (of_decide_eq_true he.2)
        omega
      have u1 : (T i j).nnz ≠ 0 → (v1.cell (ow i j, j)).Ready := fun h0 =>
        Segment.view_ready ((congrFun u2 0).trans (hview j hj 0 (hpos h0).1))
      have w1 : (T i j).nnz ≠ 0 → (v1.cell (ow i j, i)).Ready := fun h0 =>
        Segment.view_ready ((congrFun w2 0).trans (hview i hi 0 (hpos h0).2))
      obtain ⟨t', P', q1, q2, q3, q4, q5, q6⟩ := ht.1.applyEdges
        ((b2.rank _ ho).seg j hj) u1 ((b2.rank _ ho).seg i hi) w1
        (by rw [ht.2.2.1]; exact (b2.rank _ ho).cap j hj) (by rw [ht.2.1]; exact (b2.rank _ ho).cap i hi)
        (xm := fun c => vm (bnd n k j + c + 1)) (ym := fun r => vm (bnd n k i + r + 1))
        (by
          intro c hc
          rw [ht.2.2.1] at hc
          exact (congrFun u2 c).trans (hview j hj c hc))
        (by
          intro c hc
          rw [ht.2.1] at hc
          exact (congrFun w2 c).trans (hview i hi c hc)) op
      refine ⟨t', P', fun _ _ => ⟨q1, q2, by rw [q3]; exact ht.2.1, by rw [q4]; exact ht.2.2.1, ?_, ?_⟩⟩
      · rw [q5, ht.2.2.2.1, List.filter_map, List.length_map]
        rfl
      · rw [q6]
        refine (ht.2.2.2.2.map _).trans ?_
        rw [List.filter_map, List.map_map, List.map_map]
        refine List.Perm.of_eq ?_
        apply List.map_congr_left
        intro e he
        rw [List.mem_filter] at he
        have he2 : tileOf n n k k e = (i, j) := of_decide_eq_true he.2
        have hm := h.inMat e he.1
        obtain ⟨z1, z2, z3, z4⟩ := tileOf_inTile hk hk hm he2
        show _ = localOf _ _ (mapEdge op vm e)
        unfold localOf mapEdge
        simp only [Function.comp]
        rw [show bnd n k j + (e.dst - 1 - (bnd n k j : Int)).toNat + 1 = e.dst.toNat by omega,
          show bnd n k i + (e.src - 1 - (bnd n k i : Int)).toNat + 1 = e.src.toNat by omega]
    · exact ⟨T i j, P i j, fun a b => absurd ⟨a, b⟩ hij⟩
  obtain ⟨T', hT'⟩ := Classical.skolem.mp (fun i => Classical.skolem.mp (hex i))
  obtain ⟨P', hP'⟩ := Classical.skolem.mp (fun i => Classical.skolem.mp (hT' i))
  refine ⟨(List.range nrank).map (matOf n n k k nrank ow T'), v2, T', P', ?_, ⟨rfl, ?_, ?_⟩, f2, f3, f4⟩
  · unfold DMat.applyEdges
    simp only [Option.bind_eq_bind]
    rw [h.head hr, Option.bind_some]
    have e1 : (matOf n n k k nrank ow T 0).ntx = k := rfl
    rw [e1, c1, Option.bind_some, b1, Option.bind_some, mapM_some (g := matOf n n k k nrank ow T'), Option.bind_some,
      f1, Option.bind_some]
    intro r hrr
    rw [List.mem_range] at hrr
    rw [Arr.read_some (by rw [b2.size]; exact hrr), Option.bind_some, h.head hrr, Option.bind_some]
    refine RMat.applyEdges_spec (by rw [(b2.rank r hrr).size]; exact Nat.le_refl _)
      (by rw [(b2.rank r hrr).size]; exact Nat.le_refl _) ?_
    intro i j hi hj ho
    have := (hP' i j hi hj).1
    rw [ho] at this
    exact this
  · intro e he
    rw [List.mem_map] at he
    obtain ⟨e0, h0, rfl⟩ := he
    exact h.inMat e0 h0
  · intro i j hi hj
    exact (hP' i j hi hj).2

end GraphMat
