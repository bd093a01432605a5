import Verif.Model.Snapshot
import Verif.Lemmas.Load

/-! What is written to a snapshot and what is read back from it. -/
namespace GraphMat

variable {α β E V : Type}

theorem putArr_spec {enc : α → Tok E} {a : Arr α} {k : Nat} (h : k ≤ a.size) (ar : Archive E) :
    putArr enc a k ar = some (ar ++ (List.range k).map (fun i => enc (a.get i))) := by
  unfold putArr
  rw [forLoop_range, ← foldlM_snoc]
  refine foldlM_ext ?_ ar
  intro i hi ar
  rw [Arr.read_some (by have := List.mem_range.mp hi; omega)]
  rfl

theorem takeArr_spec {get : Archive E → Option (α × Archive E)} {enc : α → Tok E}
    (hg : ∀ x ar, get (enc x :: ar) = some (x, ar)) {a : Arr α} {k : Nat} (h : k ≤ a.size) (f : Nat → α)
    (rest : Archive E) :
    takeArr get a k ((List.range k).map (fun i => enc (f i)) ++ rest) =
      some (⟨a.size, fun i => if i < k then f i else a.get i⟩, rest) := by
  unfold takeArr
  obtain ⟨st, h1, h2⟩ := forLoop_inv (lo := 0) (hi := k) (s := (a, (List.range k).map (fun i => enc (f i)) ++ rest))
    (body := fun i st => do
      let (x, ar) ← get st.2
      let a ← st.1.write i x
      some (a, ar))
    (fun i (st : Arr α × Archive E) => st =
      (⟨a.size, fun j => if j < i then f j else a.get j⟩, (List.range' i (k - i)).map (fun i => enc (f i)) ++ rest))
    (Nat.zero_le _) (by
      simp only [Nat.not_lt_zero, if_false, Nat.sub_zero]
      rw [List.range_eq_range']) (by
      rintro i st _ hi rfl
      have e : List.range' i (k - i) = i :: List.range' (i + 1) (k - (i + 1)) := by
        rw [show k - i = (k - (i + 1)) + 1 from by omega, List.range'_succ]
      refine ⟨_, ?_, rfl⟩
      simp only [e, List.map_cons, List.cons_append, hg]
      simp only [Option.bind_eq_bind, Option.bind_some]
      rw [Arr.write_some (by exact Nat.lt_of_lt_of_le hi h)]
      simp only [Option.bind_some, Arr.upd]
      congr 3
      funext j
      by_cases hj : j = i
      · subst hj
        simp
      · by_cases hj' : j < i
        · simp [hj, hj', Nat.lt_succ_of_lt hj']
        · rw [if_neg hj, if_neg hj', if_neg (by omega)])
  rw [h1, h2]
  simp

theorem putList_spec {put : α → Archive E → Option (Archive E)} {l : List α} {L : α → Archive E}
    (h : ∀ x ∈ l, ∀ ar, put x ar = some (ar ++ L x)) (ar : Archive E) :
    putList put l ar = some (ar ++ (.int l.length :: l.flatMap L)) := by
  unfold putList
  generalize (Tok.int l.length : Tok E) = k
  have key : ∀ ar, l.foldlM (fun ar x => put x ar) ar = some (ar ++ l.flatMap L) := by
    induction l with
    | nil => intro ar; simp
    | cons x l ih =>
      intro ar
      rw [List.foldlM_cons, h x List.mem_cons_self]
      show List.foldlM _ (ar ++ L x) l = _
      rw [ih (fun y hy => h y (List.mem_cons_of_mem _ hy)), List.flatMap_cons, List.append_assoc]
  rw [key]
  simp

theorem takeList_spec {get : Nat → Archive E → Option (β × Archive E)} {l : List α} {L : α → Archive E} {y : Nat → β}
    (h : ∀ i (hi : i < l.length) ar, get i (L l[i] ++ ar) = some (y i, ar)) (rest : Archive E) :
    takeList get (.int l.length :: (l.flatMap L ++ rest)) = some ((List.range l.length).map y, rest) := by
  unfold takeList
  simp only [getInt, Option.bind_eq_bind, Option.bind_some]
  obtain ⟨st, h1, h2⟩ := forLoop_inv (lo := 0) (hi := l.length) (s := (([] : List β), l.flatMap L ++ rest))
    (body := fun i st => (get i st.2).bind (fun r => some (st.1 ++ [r.1], r.2)))
    (fun i (st : List β × Archive E) => st = ((List.range i).map y, (l.drop i).flatMap L ++ rest))
    (Nat.zero_le _) (by simp) (by
      rintro i st _ hi rfl
      refine ⟨_, ?_, rfl⟩
      rw [List.drop_eq_getElem_cons hi, List.flatMap_cons, List.append_assoc, h i hi, Option.bind_some,
        List.range_succ, List.map_append]
      rfl)
  rw [h1, h2]
  simp

/-- What `save` writes for a tile. -/
def Tile.toks (t : Tile E) : Archive E :=
  [.int t.nnz, .int t.m, .int t.n, .int t.numCols, .int t.np] ++
  if t.nnz > 0 then
    (List.range t.nnz).map (fun i => .val (t.vals.get i)) ++ ((List.range t.nnz).map (fun i => .int (t.rowInds.get i)) ++
    ((List.range (t.np + 1)).map (fun i => .int (t.rp.get i)) ++ ((List.range (t.np + 1)).map (fun i => .int (t.ep.get i)) ++
    ((List.range (t.np + 1)).map (fun i => .int (t.cs.get i)) ++
    ((List.range t.numCols).map (fun i => .int (t.colPtrs.get i)) ++
    (List.range t.numCols).map (fun i => .int (t.colIdx.get i)))))))
  else []

/-- The array `a` read back into memory with contents `g`. -/
def Arr.reload (a : Arr α) (g : Nat → α) : Arr α := ⟨a.size, fun i => if i < a.size then a.get i else g i⟩

theorem Arr.reload_read (a : Arr α) (g : Nat → α) (i : Nat) : (a.reload g).read i = a.read i := by
  unfold Arr.read Arr.reload
  by_cases h : i < a.size
  · simp [h]
  · simp [h]

/-- The tile read back. -/
def Tile.reload (t : Tile E) (g : TileFresh E) : Tile E :=
  if t.nnz > 0 then
    { nnz := t.nnz, m := t.m, n := t.n, numCols := t.numCols, np := t.np, vals := t.vals.reload g.vals,
      rowInds := t.rowInds.reload (g.ints 0), rp := t.rp.reload (g.ints 1), ep := t.ep.reload (g.ints 2),
      cs := t.cs.reload (g.ints 3), colPtrs := t.colPtrs.reload (g.ints 4), colIdx := t.colIdx.reload (g.ints 5) }
  else
    { nnz := t.nnz, m := t.m, n := t.n, numCols := t.numCols, np := t.np, vals := ⟨0, g.vals⟩, rowInds := ⟨0, g.ints 0⟩,
      rp := ⟨0, g.ints 1⟩, ep := ⟨0, g.ints 2⟩, cs := ⟨0, g.ints 3⟩, colPtrs := ⟨0, g.ints 4⟩, colIdx := ⟨0, g.ints 5⟩ }

theorem Tile.Rep.np_pos {t : Tile E} {P : Nat → List (Col E)} (h : t.Rep P) (hn : t.nnz > 0) : 0 < t.np := by
  rcases Nat.eq_zero_or_pos t.np with h0 | h0
  · have := h.nnz
    rw [h0] at this
    have e : eoff P 0 = 0 := rfl
    omega
  · exact h0

theorem Tile.Rep.save {t : Tile E} {P : Nat → List (Col E)} (h : t.Rep P) (ar : Archive E) :
    t.save ar = some (ar ++ t.toks) := by
  unfold Tile.save Tile.toks
  simp only [Option.bind_eq_bind]
  by_cases hn : t.nnz > 0
  · have hp := h.np_pos hn
    obtain ⟨s1, s2, s3, s4, s5, s6, s7⟩ := h.sizes hp
    rw [if_pos hn, if_pos hn, putArr_spec (Nat.le_of_eq h.valsz.symm), Option.bind_some, putArr_spec (by omega), Option.bind_some,
      putArr_spec (by omega), Option.bind_some, putArr_spec (by omega), Option.bind_some, putArr_spec (by omega),
      Option.bind_some]
    have e := (h.cs (t.np - 1) (by omega)).2
    rw [show t.np - 1 + 1 = t.np from by omega] at e
    rw [e, Option.bind_some, putArr_spec (by omega), Option.bind_some, putArr_spec (by omega), ← s7]
    simp only [List.append_assoc]
  · rw [if_neg hn, if_neg hn]
    simp

theorem Tile.Rep.load {t : Tile E} {P : Nat → List (Col E)} (h : t.Rep P) (g : TileFresh E) (ar : Archive E) :
    Tile.load g (t.toks ++ ar) = some (t.reload g, ar) := by
  have hgi : ∀ (x : Nat) (ar : Archive E), getInt (Tok.int x :: ar) = some (x, ar) := fun _ _ => rfl
  have hgv : ∀ (x : E) (ar : Archive E), getVal (Tok.val x :: ar) = some (x, ar) := fun _ _ => rfl
  unfold Tile.load Tile.toks Tile.reload
  simp only [List.cons_append, hgi, Option.bind_eq_bind, Option.bind_some, List.nil_append]
  by_cases hn : t.nnz > 0
  · have hp := h.np_pos hn
    obtain ⟨s1, s2, s3, s4, s5, s6, s7⟩ := h.sizes hp
    simp only [if_pos hn, List.append_assoc]
    rw [takeArr_spec hgv (by simp), Option.bind_some]
    simp only []
    rw [takeArr_spec hgi (by simp), Option.bind_some]
    simp only []
    rw [takeArr_spec hgi (by simp), Option.bind_some]
    simp only []
    rw [takeArr_spec hgi (by simp), Option.bind_some]
    simp only []
    rw [takeArr_spec hgi (by simp), Option.bind_some]
    simp only []
    rw [takeArr_spec hgi (by simp), Option.bind_some]
    simp only []
    rw [takeArr_spec hgi (by simp), Option.bind_some]
    simp only [Arr.reload, h.valsz, s1, s2, s3, s4, s5, s6, ← s7]
  · simp only [if_neg hn, List.nil_append]

theorem Tile.Rep.reload {t : Tile E} {P : Nat → List (Col E)} (h : t.Rep P) (g : TileFresh E) : (t.reload g).Rep P := by
  unfold Tile.reload
  by_cases hn : t.nnz > 0
  · have hp := h.np_pos hn
    obtain ⟨s1, s2, s3, s4, s5, s6, s7⟩ := h.sizes hp
    rw [if_pos hn]
    have hrp : ∀ p, p ≤ t.np → (t.rp.reload (g.ints 1)).get p = t.rp.get p := by
      intro p hp
      unfold Arr.reload
      exact if_pos (by omega)
    refine
      { ep := fun p hp => ?_, cs := fun p hp => ?_, rp := fun p hp => ?_, col := fun p hp j hj => ?_,
        ptr := fun p hp j hj => ?_, row := fun p hp k hk => ?_, val := fun p hp k hk => ?_, nnz := h.nnz,
        valsz := h.valsz, mono := fun p hp => ?_, first := fun _ => ?_, final := fun _ => ?_,
        align := fun p h0 hp => ?_, incr := h.incr, full := h.full, cols := h.cols,
        rows := fun p hp c hc e he => ?_, noEdges := h.noEdges, sizes := h.sizes }
    · simp only [Arr.reload_read]; exact h.ep p hp
    · simp only [Arr.reload_read]; exact h.cs p hp
    · have hp' : p < t.np := hp
      simp only [Arr.reload_read]
      rw [hrp p (by omega), hrp (p + 1) (by omega)]; exact h.rp p hp
    · simp only [Arr.reload_read]; exact h.col p hp j hj
    · simp only [Arr.reload_read]; exact h.ptr p hp j hj
    · simp only [Arr.reload_read]; exact h.row p hp k hk
    · simp only [Arr.reload_read]; exact h.val p hp k hk
    · have hp' : p < t.np := hp
      show (t.rp.reload (g.ints 1)).get p ≤ (t.rp.reload (g.ints 1)).get (p + 1)
      rw [hrp p (by omega), hrp (p + 1) (by omega)]; exact h.mono p hp
    · show (t.rp.reload (g.ints 1)).get 0 = 0
      rw [hrp 0 (by omega)]; exact h.first hp
    · show (t.rp.reload (g.ints 1)).get t.np = t.m
      rw [hrp t.np (Nat.le_refl _)]; exact h.final hp
    · have hp' : p ≤ t.np := hp
      show 32 ∣ (t.rp.reload (g.ints 1)).get p ∨ (t.rp.reload (g.ints 1)).get p = t.m
      rw [hrp p hp']; exact h.align p h0 hp'
    · have hp' : p < t.np := hp
      show (t.rp.reload (g.ints 1)).get p ≤ e.1 ∧ e.1 < (t.rp.reload (g.ints 1)).get (p + 1)
      rw [hrp p (by omega), hrp (p + 1) (by omega)]; exact h.rows p hp c hc e he
  · rw [if_neg hn]
    have h0 : t.np = 0 := h.noEdges (by omega)
    have hno : ∀ p, ¬ p < t.np := by intro p; omega
    refine
      { ep := fun p hp => absurd hp (hno p), cs := fun p hp => absurd hp (hno p), rp := fun p hp => absurd hp (hno p),
        col := fun p hp => absurd hp (hno p), ptr := fun p hp => absurd hp (hno p), row := fun p hp => absurd hp (hno p),
        val := fun p hp => absurd hp (hno p), nnz := h.nnz, valsz := ?_, mono := fun p hp => absurd hp (hno p),
        first := fun hp => absurd hp (hno 0), final := fun hp => absurd hp (hno 0),
        align := fun p hp => absurd hp (hno 0), incr := h.incr, full := h.full, cols := h.cols,
        rows := fun p hp => absurd hp (hno p), noEdges := h.noEdges, sizes := fun hp => absurd hp (hno 0) }
    show 0 = t.nnz
    omega

theorem Tile.reload_dims (t : Tile E) (g : TileFresh E) :
    (t.reload g).m = t.m ∧ (t.reload g).n = t.n ∧ (t.reload g).nnz = t.nnz ∧ (t.reload g).np = t.np := by
  unfold Tile.reload
  by_cases hn : t.nnz > 0
  · simp [hn]
  · simp [hn]

theorem TileHolds.reload {m n nty ntx i j : Nat} {es : List (Edge E)} {t : Tile E} {P : Nat → List (Col E)}
    (h : TileHolds m n nty ntx i j es t P) (g : TileFresh E) : TileHolds m n nty ntx i j es (t.reload g) P := by
  obtain ⟨e1, e2, e3, e4⟩ := t.reload_dims g
  obtain ⟨a1, a2, a3, a4, a5⟩ := h
  exact ⟨a1.reload g, by rw [e1]; exact a2, by rw [e2]; exact a3, by rw [e3]; exact a4, by rw [e4]; exact a5⟩

/-- What is written for a pointer to a tile. -/
def tileToks : Option (Tile E) → Archive E
  | none => [.null]
  | some t => .object :: t.toks

theorem grid_get {a b : Nat} (f : Nat → Nat → α) {i j : Nat} (hi : i < b) (hj : j < a) :
    ((List.range a).map (fun j => (List.range b).map (fun i => f j i))).flatten[i + j * b]? = some (f j i) := by
  have hlen : ∀ k, ((List.range k).map (fun j => (List.range b).map (fun i => f j i))).flatten.length = k * b := by
    intro k
    induction k with
    | zero => simp
    | succ k ih =>
      rw [List.range_succ, List.map_append, List.flatten_append, List.length_append, ih]
      simp [Nat.succ_mul]
  induction a with
  | zero => omega
  | succ a ih =>
    rw [List.range_succ, List.map_append, List.flatten_append]
    by_cases hja : j < a
    · rw [List.getElem?_append_left, ih hja]
      rw [hlen]
      have : (j + 1) * b ≤ a * b := Nat.mul_le_mul_right b hja
      rw [Nat.succ_mul] at this
      omega
    · have : j = a := by omega
      subst this
      rw [List.getElem?_append_right (by rw [hlen]; omega), hlen]
      simp [hi]

/-- What is written for a matrix. -/
def RMat.toks (M : RMat E) (ow : Nat → Nat → Nat) : Archive E :=
  [.object, .int M.ntx, .int M.nty, .int M.m, .int M.n] ++
  ((.int M.nty :: (List.range M.nty).flatMap (fun i => .int M.ntx :: (List.range M.ntx).flatMap (fun j => tileToks (M.tiles i j)))) ++
  ((.int (startIds M.n M.ntx).length :: (startIds M.n M.ntx).flatMap (fun k => [.int k])) ++
  ((.int (startIds M.m M.nty).length :: (startIds M.m M.nty).flatMap (fun k => [.int k])) ++
  (.int (((List.range M.ntx).map (fun j => (List.range M.nty).map (fun i => ow i j))).flatten).length ::
    (((List.range M.ntx).map (fun j => (List.range M.nty).map (fun i => ow i j))).flatten).flatMap (fun k => [.int k])))))

theorem RMat.save_spec {M : RMat E} {ow : Nat → Nat → Nat} (hn : ∀ i j, i < M.nty → j < M.ntx → M.node i j = some (ow i j))
    (ht : ∀ i j t, i < M.nty → j < M.ntx → M.tiles i j = some t → ∃ P, t.Rep P) (ar : Archive E) :
    M.save ar = some (ar ++ M.toks ow) := by
  unfold RMat.save RMat.toks
  simp only [Option.bind_eq_bind]
  rw [putList_spec (L := fun i => .int M.ntx :: (List.range M.ntx).flatMap (fun j => tileToks (M.tiles i j))), Option.bind_some,
    putList_spec (put := putInt) (L := fun k => [.int k]) (fun k _ ar => rfl), Option.bind_some,
    putList_spec (put := putInt) (L := fun k => [.int k]) (fun k _ ar => rfl), Option.bind_some,
    mapM_some (g := fun j => (List.range M.nty).map (fun i => ow i j)), Option.bind_some,
    putList_spec (put := putInt) (L := fun k => [.int k]) (fun k _ ar => rfl)]
  · simp only [List.append_assoc, List.length_range]
  · intro j hj
    exact mapM_some (fun i hi => hn i j (List.mem_range.mp hi) (List.mem_range.mp hj))
  · intro i hi ar
    rw [putList_spec (L := fun j => tileToks (M.tiles i j)), List.length_range]
    intro j hj ar
    unfold putTile tileToks
    cases hc : M.tiles i j with
    | none => rfl
    | some t =>
      obtain ⟨P, hP⟩ := ht i j t (List.mem_range.mp hi) (List.mem_range.mp hj) hc
      simp only []
      rw [hP.save]
      simp

theorem takeTile_spec {t : Option (Tile E)} (ht : ∀ t', t = some t' → ∃ P, t'.Rep P) (g : TileFresh E) (ar : Archive E) :
    takeTile g (tileToks t ++ ar) = some (t.map (fun t => t.reload g), ar) := by
  unfold tileToks
  cases t with
  | none => rfl
  | some t =>
    obtain ⟨P, hP⟩ := ht t rfl
    simp only [List.cons_append, takeTile, hP.load g]
    rfl

theorem RMat.load_spec {M : RMat E} {ow : Nat → Nat → Nat} 
    (ht : ∀ i j t, i < M.nty → j < M.ntx → M.tiles i j = some t → ∃ P, t.Rep P) (g : Nat → Nat → TileFresh E) (nrank r : Nat)
    (ar : Archive E) :
    RMat.load g nrank r (M.toks ow ++ ar) = some (
      { m := M.m, n := M.n, ntx := M.ntx, nty := M.nty, nrank := nrank, myrank := r,
        node := fun i j => if i < M.nty ∧ j < M.ntx then some (ow i j) else partitionFn2d j i nrank,
        tiles := fun i j => if i < M.nty ∧ j < M.ntx then (M.tiles i j).map (fun t => t.reload (g i j)) else none }, ar) := by
  have hints : ∀ (l : List Nat) (ar : Archive E), takeList (fun _ => getInt) (.int l.length :: (l.flatMap (fun k => [.int k]) ++ ar)) =
      some (l, ar) := by
    intro l ar
    rw [takeList_spec (L := fun k => [.int k]) (y := fun i => l.getD i 0)]
    · congr 2
      apply List.ext_getElem (by simp)
      intro i h1 h2
      simp [h2]
    · intro i hi ar
      simp [getInt, hi]
  unfold RMat.toks RMat.load
  simp only [List.cons_append, List.nil_append, List.append_assoc, getInt, Option.bind_eq_bind, Option.bind_some]
  have e := takeList_spec (l := List.range M.nty)
    (L := fun i => .int M.ntx :: (List.range M.ntx).flatMap (fun j => tileToks (M.tiles i j)))
    (get := fun i => takeList (fun j => takeTile (g i j)))
    (y := fun i => (List.range M.ntx).map (fun j => (M.tiles i j).map (fun t => t.reload (g i j)))) (by
      intro i hi ar
      have hi' : i < M.nty := by simpa using hi
      have e := takeList_spec (l := List.range M.ntx) (L := fun j => tileToks (M.tiles i j))
        (get := fun j => takeTile (g i j)) (y := fun j => (M.tiles i j).map (fun t => t.reload (g i j))) (by
          intro j hj ar
          have hj' : j < M.ntx := by simpa using hj
          simp only [List.getElem_range]
          exact takeTile_spec (fun t' h => ht i j t' hi' hj' h) (g i j) ar) ar
      simp only [List.length_range] at e
      simp only [List.getElem_range, List.cons_append]
      exact e)
  simp only [List.length_range] at e
  rw [e, Option.bind_some]
  simp only []
  rw [hints, Option.bind_some]
  simp only []
  rw [hints, Option.bind_some]
  simp only []
  rw [hints, Option.bind_some, if_neg (by simp)]
  congr 2
  congr 1
  · funext i j
    by_cases hij : i < M.nty ∧ j < M.ntx
    · rw [if_pos hij, if_pos hij, grid_get (fun j i => ow i j) hij.1 hij.2]
    · rw [if_neg hij, if_neg hij]
  · funext i j
    by_cases hij : i < M.nty ∧ j < M.ntx
    · rw [if_pos hij]
      simp [hij.1, hij.2]
    · rw [if_neg hij]
      by_cases hi : i < M.nty
      · have hj : ¬ j < M.ntx := fun hj => hij ⟨hi, hj⟩
        simp [hi, hj]
      · simp [hi]

end GraphMat
