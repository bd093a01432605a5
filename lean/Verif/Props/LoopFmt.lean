import Verif.Lemmas.LoopFmt
import Verif.Props.LoopEdges
import Verif.Props.Formats

/-!
# C67: the parallel loops that build and unpack CSR, DCSR, COO and COO-SIMD tiles

Each parallel loop has no data race and one outcome, the one that the sequential model computes.
-/
namespace GraphMat

variable {E : Type}

/-- Whether the array is written by the loops that copy the edges. -/
def isFill : FmtArr → Prop
  | .a => True
  | .ja => True
  | .ia => True
  | _ => False

theorem fill_tasks {ge : Nat → Edge E} {ga : Nat → E} {gj gi : Nat → Int} {es : List (Edge E)} {rs cs : Nat} {a : Arr E}
    {ja ia : Arr Int} (h1 : fillFrom ga (es.map (·.val)) = some a)
    (h2 : fillFrom gj (es.map (fun e => e.dst - (cs : Int))) = some ja)
    (h3 : fillFrom gi (es.map (fun e => e.src - (rs : Int))) = some ia) (M : FmtMem E) (hM : M.edges = arrFrom ge es) :
    OneOutcome (parFor es.length (fillC rs cs))
      (arrMem ({ M with a := ⟨es.length, ga⟩, ja := ⟨es.length, gj⟩, ia := ⟨es.length, gi⟩ } : FmtMem E).arrs)
      (arrMem ({ M with a := a, ja := ja, ia := ia } : FmtMem E).arrs) (fun _ => ()) := by
  refine parFor_map isFill ?_ ?_
  · intro k j hk
    have hj : isFill k → es.length ≤ j := fun hf => by
      by_contra hc
      exact hk ⟨hf, by omega⟩
    cases k <;> first | rfl | skip
    · show a.get j = ga j
      rw [fillFrom_arr h1, arrFrom_out (by rw [List.length_map]; exact hj trivial)]
    · show ja.get j = gj j
      rw [fillFrom_arr h2, arrFrom_out (by rw [List.length_map]; exact hj trivial)]
    · show ia.get j = gi j
      rw [fillFrom_arr h3, arrFrom_out (by rw [List.length_map]; exact hj trivial)]
  · intro i hi m hm _
    have e0 : (m (FmtArr.edges, i) : Edge E) = es[i] := by
      rw [hm FmtArr.edges i (fun h => h)]
      show M.edges.get i = _
      rw [hM]
      exact arrFrom_get hi
    refine ⟨Function.update (Function.update (Function.update m (FmtArr.a, i) es[i].val) (FmtArr.ja, i)
      (es[i].dst - (cs : Int))) (FmtArr.ia, i) (es[i].src - (rs : Int)), ?_, ?_⟩
    · unfold fillC
      refine (Does.rdv (k := FmtArr.edges) (Or.inr (fun h => h)) e0).bind ?_
      refine (Does.wrv (k := FmtArr.a) ⟨trivial, rfl⟩ _ _).bind ?_
      refine (Does.rdv (k := FmtArr.edges) (Or.inr (fun h => h)) (v := es[i]) (by
        rw [Function.update_of_ne (by intro h; cases h)]; exact e0)).bind ?_
      refine (Does.wrv (k := FmtArr.ja) ⟨trivial, rfl⟩ _ _).bind ?_
      refine (Does.rdv (k := FmtArr.edges) (Or.inr (fun h => h)) (v := es[i]) (by
        rw [Function.update_of_ne (by intro h; cases h), Function.update_of_ne (by intro h; cases h)]; exact e0)).bind ?_
      exact Does.wrv (k := FmtArr.ia) ⟨trivial, rfl⟩ _ _
    · intro k hk
      cases k <;> first | exact hk.elim | skip
      · show _ = a.get i
        rw [fillFrom_arr h1, arrFrom_get (by rw [List.length_map]; exact hi), List.getElem_map,
          Function.update_of_ne (by intro h; cases h), Function.update_of_ne (by intro h; cases h), Function.update_self]
      · show _ = ja.get i
        rw [fillFrom_arr h2, arrFrom_get (by rw [List.length_map]; exact hi), List.getElem_map,
          Function.update_of_ne (by intro h; cases h), Function.update_self]
      · show _ = ia.get i
        rw [fillFrom_arr h3, arrFrom_get (by rw [List.length_map]; exact hi), List.getElem_map,
          Function.update_self]

/-- The COO constructor: copying the edges, and searching where the partitions start (`behind` is what follows `ia` in
memory, which the search may read). -/
theorem coo_build_tasks {behind : Option Int} {g : FmtFresh E} {threads : Nat} {sort : List (Edge E) → List (Edge E)}
    {edges : List (Edge E)} (hne : edges ≠ []) {m n rs cs : Nat} {t : COO E}
    (h : COO.build behind g threads sort edges m n rs cs = some t) :
    (∀ ge (M : FmtMem E), M.edges = arrFrom ge (sort edges) → OneOutcome (parFor t.nnz (fillC rs cs))
      (arrMem ({ M with a := ⟨t.nnz, g.vals⟩, ja := ⟨t.nnz, g.ints 4⟩, ia := ⟨t.nnz, g.ints 5⟩ } : FmtMem E).arrs)
      (arrMem ({ M with a := t.a, ja := t.ja, ia := t.ia } : FmtMem E).arrs) (fun _ => ())) ∧
    ∀ M : FmtMem E, M.ia = t.ia.seen behind → ∃ ps, ps.write t.np t.nnz = some t.ps ∧
      OneOutcome (parFor t.np (partsC (fun item => lBinaryLoopC item (t.nnz + 3) 0 t.nnz 0) m
        (((m + t.np - 1) / t.np + 31) / 32 * 32)))
        (arrMem ({ M with ps := ⟨t.np + 1, g.nats 4⟩ } : FmtMem E).arrs) (arrMem ({ M with ps := ps } : FmtMem E).arrs)
        (fun _ => ()) := by
  unfold COO.build at h
  rw [if_pos (List.length_pos_iff.mpr hne)] at h
  simp only [Option.bind_eq_bind, Option.bind_eq_some_iff] at h
  obtain ⟨a, h1, ja, h2, ia, h3, h⟩ := h
  split_ifs at h with hnp
  simp only [Option.bind_eq_some_iff] at h
  obtain ⟨ps, h4, h⟩ := h
  injection h with h
  subst h
  refine ⟨fun ge M hM => fill_tasks h1 h2 h3 M hM, fun M hM => parts_tasks h4 M ?_⟩
  intro ps' item r own hr
  refine lBinaryLoop_does (fun _ => rfl) _ item _ _ _ none _ _ (by rintro x hx; cases hx) ?_
  rw [← hr]
  show lBinaryLoop M.ia _ _ _ _ _ = _
  rw [hM]
  rfl

/-- The CSR constructor: copying the edges (`jia` are the rows). -/
theorem csr_build_tasks {g : FmtFresh E} {threads : Nat} {sort : List (Edge E) → List (Edge E)} {edges es : List (Edge E)}
    (hne : edges ≠ []) {m n rs cs : Nat} {t : CSR E} (h : CSR.build g threads sort edges m n rs cs = some (es, t)) :
    ∃ jia, fillFrom (g.ints 1) (es.map (fun e => e.src - (rs : Int))) = some jia ∧
      ∀ ge (M : FmtMem E), M.edges = arrFrom ge es → OneOutcome (parFor t.nnz (fillC rs cs))
        (arrMem ({ M with a := ⟨t.nnz, g.vals⟩, ja := ⟨t.nnz, g.ints 0⟩, ia := ⟨t.nnz, g.ints 1⟩ } : FmtMem E).arrs)
        (arrMem ({ M with a := t.a, ja := t.ja, ia := jia } : FmtMem E).arrs) (fun _ => ()) := by
  unfold CSR.build at h
  rw [if_pos (List.length_pos_iff.mpr hne)] at h
  simp only [Option.bind_eq_bind, Option.bind_eq_some_iff] at h
  obtain ⟨a, h1, ja, h2, jia, h3, h⟩ := h
  split_ifs at h with hnp
  simp only [Option.bind_eq_some_iff] at h
  obtain ⟨ia, h4, ia', h5, h⟩ := h
  injection h with h
  injection h with e1 e2
  subst e1 e2
  exact ⟨jia, h3, fun ge M hM => fill_tasks h1 h2 h3 M hM⟩

theorem simdEdge_tasks {rs cs : Nat} {edges : List (Edge E)} {ts : List (TEdge E)} (h : edges.mapM (simdEdge rs cs) = some ts)
    (ge : Nat → Edge E) (gt : Nat → TEdge E) (M : FmtMem E) (hM : M.edges = arrFrom ge edges) :
    OneOutcome (parFor edges.length (simdEdgeC rs cs)) (arrMem ({ M with tmp := ⟨edges.length, gt⟩ } : FmtMem E).arrs)
      (arrMem ({ M with tmp := arrFrom gt ts } : FmtMem E).arrs) (fun _ => ()) := by
  obtain ⟨hl, hm⟩ := mapM_getElem h
  refine parFor_map (fun k => k = FmtArr.tmp) ?_ ?_
  · intro k j hk
    cases k <;> first | rfl | skip
    exact arrFrom_out (g := gt) (by
      by_contra hc
      exact hk ⟨rfl, by omega⟩)
  · intro i hi m h1 _
    obtain ⟨y, y1, y2⟩ := hm i hi
    have e0 : (m (FmtArr.edges, i) : Edge E) = edges[i] := by
      rw [h1 FmtArr.edges i (by intro h; cases h)]
      show M.edges.get i = _
      rw [hM]
      exact arrFrom_get hi
    refine ⟨_, (Does.rdv (k := FmtArr.edges) (Or.inr (by intro h; cases h)) e0).bind
      (Does.wrv (k := FmtArr.tmp) ⟨rfl, rfl⟩ _ _), ?_⟩
    rintro k rfl
    rw [Function.update_self]
    show _ = (ts[i]?).getD (gt i)
    rw [y1, Option.getD_some]
    unfold simdEdge at y2
    simp only [Option.bind_eq_bind, Option.bind_eq_some_iff] at y2
    obtain ⟨s, g1, d, g2, s1, g3, y2⟩ := y2
    injection y2 with y2
    subst y2
    have e1 : s = (edges[i].src - (rs : Int)).toNat := by
      unfold natIdx at g1
      split_ifs at g1
      injection g1 with g1
      exact g1.symm
    have e2 : d = (edges[i].dst - (cs : Int)).toNat := by
      unfold natIdx at g2
      split_ifs at g2
      injection g2 with g2
      exact g2.symm
    have e3 : s1 = s - 1 := by
      cases s with
      | zero => cases g3
      | succ s => injection g3 with g3; omega
    rw [e3, ← e1, ← e2]

theorem simdIa_tasks {ts : List (TEdge E)} {gi : Nat → Int} {ia : Arr Int}
    (h : fillFrom gi (ts.map (fun e => (e.src : Int))) = some ia) (gt : Nat → TEdge E) (M : FmtMem E)
    (hM : M.tmp = arrFrom gt ts) :
    OneOutcome (parFor ts.length simdIaC) (arrMem ({ M with ia := ⟨ts.length, gi⟩ } : FmtMem E).arrs)
      (arrMem ({ M with ia := ia } : FmtMem E).arrs) (fun _ => ()) := by
  refine parFor_map (fun k => k = FmtArr.ia) ?_ ?_
  · intro k j hk
    cases k <;> first | rfl | skip
    show ia.get j = gi j
    rw [fillFrom_arr h]
    exact arrFrom_out (by
      rw [List.length_map]
      by_contra hc
      exact hk ⟨rfl, by omega⟩)
  · intro i hi m h1 _
    have e0 : (m (FmtArr.tmp, i) : TEdge E) = ts[i] := by
      rw [h1 FmtArr.tmp i (by intro h; cases h)]
      show M.tmp.get i = _
      rw [hM]
      exact arrFrom_get hi
    refine ⟨_, (Does.rdv (k := FmtArr.tmp) (Or.inr (by intro h; cases h)) e0).bind
      (Does.wrv (k := FmtArr.ia) ⟨rfl, rfl⟩ _ _), ?_⟩
    rintro k rfl
    rw [Function.update_self]
    show _ = ia.get i
    rw [fillFrom_arr h, arrFrom_get (by rw [List.length_map]; exact hi), List.getElem_map]

/-- The COO-SIMD constructor: placing the edges in blocks of rows (`ts`), copying their rows to `ia` (`ia1`), searching
where the partitions start, and arranging each partition. -/
theorem simd_build_tasks {g : FmtFresh E} {threads : Nat} {sort : List (TEdge E) → List (TEdge E)}
    (hsort : SortsBy compareSimd sort) {sortBins : Nat → List SimdBin → List SimdBin} {edges : List (Edge E)}
    (hne : edges ≠ []) {m n rs cs : Nat} {t : COO E}
    (h : COO.buildSimd g threads sort sortBins edges m n rs cs = some t) :
    ∃ ts ia1, edges.mapM (simdEdge rs cs) = some ts ∧
      fillFrom (g.ints 5) ((sort ts).map (fun e => (e.src : Int))) = some ia1 ∧
      (∀ ge gt (M : FmtMem E), M.edges = arrFrom ge edges → OneOutcome (parFor t.nnz (simdEdgeC rs cs))
        (arrMem ({ M with tmp := ⟨t.nnz, gt⟩ } : FmtMem E).arrs) (arrMem ({ M with tmp := arrFrom gt ts } : FmtMem E).arrs)
        (fun _ => ())) ∧
      (∀ gt (M : FmtMem E), M.tmp = arrFrom gt (sort ts) → OneOutcome (parFor t.nnz simdIaC)
        (arrMem ({ M with ia := ⟨t.nnz, g.ints 5⟩ } : FmtMem E).arrs) (arrMem ({ M with ia := ia1 } : FmtMem E).arrs)
        (fun _ => ())) ∧
      (∀ M : FmtMem E, M.ia = ia1 → ∃ ps, ps.write t.np t.nnz = some t.ps ∧
        OneOutcome (parFor t.np (partsC (lLinearSearchC (t.nnz + 1) 0 t.nnz) m
          (((m + t.np - 1) / t.np + 31) / 32 * 32)))
          (arrMem ({ M with ps := ⟨t.np + 1, g.nats 4⟩ } : FmtMem E).arrs) (arrMem ({ M with ps := ps } : FmtMem E).arrs)
          (fun _ => ())) ∧
      ∀ gt (M : FmtMem E), M.tmp = arrFrom gt (sort ts) → M.ps = t.ps → OneOutcome
        (parFor t.np (fun p => simdPartC (g.nats 6) (sortBins p) m (((m + t.np - 1) / t.np + 31) / 32 * 32) p))
        (arrMem ({ M with ja := ⟨t.nnz, g.ints 4⟩, ia := ia1, a := ⟨t.nnz, g.vals⟩, simd := ⟨t.np + 1, g.nats 5⟩ }
          : FmtMem E).arrs)
        (arrMem ({ M with ja := t.ja, ia := t.ia, a := t.a, simd := t.simd } : FmtMem E).arrs) (fun _ => ()) := by
  unfold COO.buildSimd at h
  rw [if_pos (List.length_pos_iff.mpr hne)] at h
  simp only [Option.bind_eq_bind, Option.bind_eq_some_iff] at h
  obtain ⟨ts, h1, ia, h2, h⟩ := h
  split_ifs at h with hnp
  simp only [Option.bind_eq_some_iff] at h
  obtain ⟨ps, h3, st, h4, h⟩ := h
  injection h with h
  subst h
  have hl : (sort ts).length = edges.length := by
    rw [(hsort ts).1.length_eq, (mapM_getElem h1).1]
  refine ⟨ts, ia, h1, h2, ?_, ?_, ?_, ?_⟩
  · intro ge gt M hM
    simp only
    rw [hl]
    exact simdEdge_tasks h1 ge gt M hM
  · intro gt M hM
    exact simdIa_tasks h2 gt M hM
  · intro M hM
    refine parts_tasks h3 M ?_
    intro ps' item r own hr
    refine lLinearSearch_does (fun _ => rfl) _ ?_
    rw [← hr]
    show lLinearSearch _ _ _ M.ia _ = _
    rw [hM]
  · intro gt M hM hps
    simp only at hps
    rw [← hps] at h4
    exact simdParts_tasks hM h4

/-- Two threads, a tile of 40 rows and 17 columns with twenty edges. -/
example : (CSR.build fmtFresh 2 (insSort compareSrcDst) fmtEdges 40 17 10 20).isSome = true ∧
    (COO.build (some 40) fmtFresh 2 (insSort compareSrcDst) fmtEdges 40 17 10 20).isSome = true ∧
    (COO.buildSimd fmtFresh 2 (insSort compareSimd) (fun _ => insSort compareBin) fmtEdges 40 17 10 20).isSome = true ∧
    fmtEdges ≠ [] ∧ SortsBy compareSimd (insSort (compareSimd (E := Nat))) :=
  ⟨by decide +kernel, by decide +kernel, by decide +kernel, by decide, insSort_simd⟩

/-- `get_edges` of COO and COO-SIMD tiles, into an array with any contents. -/
theorem coo_out_tasks {t : COO E} {rs cs : Nat} {es : List (Edge E)} (h : t.getEdges rs cs = some es) (ge : Nat → Edge E)
    (M : FmtMem E) (h1 : M.a = t.a) (h2 : M.ja = t.ja) (h3 : M.ia = t.ia) :
    OneOutcome (parFor t.nnz (cooOutC rs cs)) (arrMem ({ M with edges := ⟨t.nnz, ge⟩ } : FmtMem E).arrs)
      (arrMem ({ M with edges := arrFrom ge es } : FmtMem E).arrs) (fun _ => ()) := by
  obtain ⟨hl, hm⟩ := mapM_getElem h
  rw [List.length_range] at hl
  refine parFor_map (fun k => k = FmtArr.edges) ?_ ?_
  · intro k j hk
    cases k <;> first | rfl | skip
    exact arrFrom_out (g := ge) (by
      by_contra hc
      exact hk ⟨rfl, by omega⟩)
  · intro i hi m g1 _
    obtain ⟨y, y1, y2⟩ := hm i (by rw [List.length_range]; exact hi)
    rw [List.getElem_range] at y2
    simp only [Option.bind_eq_bind, Option.bind_eq_some_iff] at y2
    obtain ⟨v, e1, j, e2, r, e3, y2⟩ := y2
    injection y2 with y2
    have f1 : (m (FmtArr.a, i) : E) = v := by
      rw [g1 FmtArr.a i (by intro h; cases h), ← (Arr.read_eq_some.mp e1).2, ← h1]; rfl
    have f2 : (m (FmtArr.ja, i) : Int) = j := by
      rw [g1 FmtArr.ja i (by intro h; cases h), ← (Arr.read_eq_some.mp e2).2, ← h2]; rfl
    have f3 : (m (FmtArr.ia, i) : Int) = r := by
      rw [g1 FmtArr.ia i (by intro h; cases h), ← (Arr.read_eq_some.mp e3).2, ← h3]; rfl
    refine ⟨_, (Does.rdv (k := FmtArr.a) (Or.inr (by intro h; cases h)) f1).bind
      ((Does.rdv (k := FmtArr.ja) (Or.inr (by intro h; cases h)) f2).bind
        ((Does.rdv (k := FmtArr.ia) (Or.inr (by intro h; cases h)) f3).bind
          (Does.wrv (k := FmtArr.edges) ⟨rfl, rfl⟩ _ _))), ?_⟩
    rintro k rfl
    rw [Function.update_self]
    show _ = (es[i]?).getD (ge i)
    rw [y1, Option.getD_some, ← y2]

/-- `get_edges` of CSR tiles. -/
theorem csr_out_tasks {g : FmtFresh E} {threads : Nat} (ht : 0 < threads) {sort : List (Edge E) → List (Edge E)}
    (hsort : SortsBy compareSrcDst sort) {edges : List (Edge E)} (hne : edges ≠ []) {m n rs cs : Nat}
    (hin : ∀ e ∈ edges, InTile m n rs cs e) {es' : List (Edge E)} {t : CSR E}
    (hb : CSR.build g threads sort edges m n rs cs = some (es', t)) {ge : Nat → Edge E} {es : List (Edge E)}
    (h : t.getEdges ge rs cs = some es) (M : FmtMem E) (h1 : M.a = t.a) (h2 : M.ja = t.ja) (h3 : M.ptr = t.ia) :
    ∃ out, out.toList = es ∧ OneOutcome (parFor t.m (csrOutC rs cs))
      (arrMem ({ M with edges := ⟨t.nnz, ge⟩ } : FmtMem E).arrs) (arrMem ({ M with edges := out } : FmtMem E).arrs)
      (fun _ => ()) := by
  have hlen := List.length_pos_iff.mpr hne
  obtain ⟨d, _⟩ := List.exists_mem_of_ne_nil _ hne
  obtain ⟨t', c, b1, _, _, b2, ok⟩ := CSR.build_spec g ht hsort hin d hlen
  rw [hb] at b1
  injection b1 with b1
  injection b1 with _ b1
  subst b1
  rw [(hsort edges).1.length_eq] at b2
  unfold CSR.getEdges at h
  rw [if_pos (by omega)] at h
  rw [Option.bind_eq_bind, Option.bind_eq_some_iff] at h
  obtain ⟨out, h, he⟩ := h
  injection he with he
  refine ⟨out, he, ?_⟩
  refine parFor_outcome (own := fun i l => l.1 = FmtArr.edges ∧ c i ≤ l.2 ∧ l.2 < c (i + 1))
    (shared := fun l => l.1 ≠ FmtArr.edges) (mem := fun out => arrMem ({ M with edges := out } : FmtMem E).arrs) ?_ ?_ ?_ h
  · rintro i j ⟨k, l⟩ hi hj ⟨_, a1, a2⟩ ⟨_, b1, b2⟩
    simp only at *
    rcases Nat.lt_trichotomy i j with hij | hij | hij
    · have := mono_le ok.mono (show i + 1 ≤ j from hij) (by omega); omega
    · exact hij
    · have := mono_le ok.mono (show j + 1 ≤ i from hij) (by omega); omega
  · rintro i ⟨k, l⟩ _ ⟨a1, _⟩ a2
    exact a2 a1
  · intro i hi o o' hg
    simp only [Option.bind_eq_bind, Option.bind_eq_some_iff] at hg
    obtain ⟨lo, g1, hi', g2, hg⟩ := hg
    have e1 := (Arr.read_eq_some.mp g1).2
    have e2 := (Arr.read_eq_some.mp g2).2
    rw [ok.ptr i (by omega)] at e1
    rw [ok.ptr (i + 1) (by omega)] at e2
    refine (Does.ld (k := FmtArr.ptr) (Or.inr (by intro h; cases h)) _ (show M.ptr.read i = some lo by rw [h3]; exact g1)).bind ?_
    refine (Does.ld (k := FmtArr.ptr) (Or.inr (by intro h; cases h)) _
      (show M.ptr.read (i + 1) = some hi' by rw [h3]; exact g2)).bind ?_
    refine Does.forUnit (mem := fun out => arrMem ({ M with edges := out } : FmtMem E).arrs) ?_ hg
    intro nz n1 n2 u u' hu
    simp only [Option.bind_eq_some_iff] at hu
    obtain ⟨k, k1, j, j1, v, v1, hu⟩ := hu
    have e3 : k = nz - 1 := by
      cases nz with
      | zero => cases k1
      | succ s => injection k1 with k1; omega
    subst e3
    refine (Does.ld (k := FmtArr.ja) (Or.inr (by intro h; cases h)) _
      (show M.ja.read (nz - 1) = some j by rw [h2]; exact j1)).bind ?_
    refine (Does.ld (k := FmtArr.a) (Or.inr (by intro h; cases h)) _
      (show M.a.read (nz - 1) = some v by rw [h1]; exact v1)).bind ?_
    exact Does.st (k := FmtArr.edges) ⟨rfl, by show c i ≤ nz - 1; omega, by show nz - 1 < c (i + 1); omega⟩ hu
      (by intro k' hk; cases k' <;> first | rfl | exact absurd rfl hk)

/-- `get_edges` of DCSR tiles: the edges are unpacked as in the sequential model, and the reduction `nnzcnt` is `nnz` however
the iterations are divided among the threads. -/
theorem dcsr_out_tasks {x : Int} {g : FmtFresh E} {threads : Nat} (ht : 0 < threads) {sort : List (Edge E) → List (Edge E)}
    (hsort : SortsBy compareSrcDst sort) {edges : List (Edge E)} (hne : edges ≠ []) {m n rs cs : Nat}
    (hin : ∀ e ∈ edges, InTile m n rs cs e) {t : DCSR E}
    (hb : DCSR.build (some x) g threads sort edges m n rs cs = some t) {ge : Nat → Edge E} {es : List (Edge E)}
    (h : t.getEdges ge rs cs = some es) (M : FmtMem E) (h1 : M.a = t.a) (h2 : M.ja = t.ja) (h3 : M.ptr = t.ia)
    (h4 : M.rows = t.rowIds) :
    ∃ out res, out.toList = es ∧ OneOutcome (parForR 0 t.numRows (dcsrOutC rs cs))
      (arrMem ({ M with edges := ⟨t.nnz, ge⟩ } : FmtMem E).arrs) (arrMem ({ M with edges := out } : FmtMem E).arrs) res ∧
      ∀ chunks, IsSplit t.numRows chunks → redSum res chunks = t.nnz := by
  have hlen := List.length_pos_iff.mpr hne
  obtain ⟨d, _⟩ := List.exists_mem_of_ne_nil _ hne
  obtain ⟨t', r, c, b1, _, _, b2, ok⟩ := DCSR.build_spec x g ht hsort hin d hlen
  rw [hb] at b1
  injection b1 with b1
  subst b1
  rw [(hsort edges).1.length_eq] at b2
  unfold DCSR.getEdges at h
  rw [if_pos (by omega)] at h
  rw [Option.bind_eq_bind, Option.bind_eq_some_iff] at h
  obtain ⟨st, h, he⟩ := h
  split_ifs at he with hc
  injection he with he
  refine ⟨st.1, fun i => if i < t.numRows then c (i + 1) - c i else 0, he, ?_, ?_⟩
  · refine parForR_outcome (σ := Arr (Edge E) × Nat) (own := fun i l => l.1 = FmtArr.edges ∧ c i ≤ l.2 ∧ l.2 < c (i + 1))
      (shared := fun l => l.1 ≠ FmtArr.edges) (mem := fun st => arrMem ({ M with edges := st.1 } : FmtMem E).arrs) ?_ ?_ ?_ h
    · rintro i j ⟨k, l⟩ hi hj ⟨_, a1, a2⟩ ⟨_, b1, b2⟩
      simp only at *
      rcases Nat.lt_trichotomy i j with hij | hij | hij
      · have := mono_le ok.mono (show i + 1 ≤ j from hij) (by omega); omega
      · exact hij
      · have := mono_le ok.mono (show j + 1 ≤ i from hij) (by omega); omega
    · rintro i ⟨k, l⟩ _ ⟨a1, _⟩ a2
      exact a2 a1
    · intro i hi o o' hg
      simp only [Option.bind_eq_bind, Option.bind_eq_some_iff] at hg
      obtain ⟨lo, g1, hi', g2, hg⟩ := hg
      have e1 := (Arr.read_eq_some.mp g1).2
      have e2 := (Arr.read_eq_some.mp g2).2
      rw [ok.ptr i (by omega)] at e1
      rw [ok.ptr (i + 1) (by omega)] at e2
      refine (Does.ld (k := FmtArr.ptr) (Or.inr (by intro h; cases h)) _ (show M.ptr.read i = some lo by rw [h3]; exact g1)).bind ?_
      refine (Does.ld (k := FmtArr.ptr) (Or.inr (by intro h; cases h)) _
        (show M.ptr.read (i + 1) = some hi' by rw [h3]; exact g2)).bind ?_
      have hmono := ok.mono i hi
      obtain ⟨hcount, key⟩ := Does.forInv (σ := Arr (Edge E) × Nat)
        (own := fun l : FmtArr × Nat => l.1 = FmtArr.edges ∧ c i ≤ l.2 ∧ l.2 < c (i + 1))
        (shared := fun l => l.1 ≠ FmtArr.edges) (reg := fun s => s.2 - o.2)
        (mem := fun st => arrMem ({ M with edges := st.1 } : FmtMem E).arrs)
        (body := fun nz k => do
          let r : Int ← aload FmtArr.rows i
          let j : Int ← aload FmtArr.ja nz
          let v : E ← aload FmtArr.a nz
          astore FmtArr.edges nz ({ src := r + rs + 1, dst := j + cs + 1, val := v } : Edge E)
          pure (k + 1)) (fun nz (s : Arr (Edge E) × Nat) => s.2 = o.2 + (nz - lo)) (show lo ≤ hi' by omega) (by
        intro nz n1 n2 u u' hk hu
        simp only [Option.bind_eq_some_iff] at hu
        obtain ⟨r, r1, j, j1, v, v1, o1, o2, hu⟩ := hu
        injection hu with hu
        subst hu
        refine ⟨by show u.2 + 1 = _; omega, ?_⟩
        refine (Does.ld (k := FmtArr.rows) (Or.inr (by intro h; cases h)) _
          (show M.rows.read i = some r by rw [h4]; exact r1)).bind ?_
        refine (Does.ld (k := FmtArr.ja) (Or.inr (by intro h; cases h)) _
          (show M.ja.read nz = some j by rw [h2]; exact j1)).bind ?_
        refine (Does.ld (k := FmtArr.a) (Or.inr (by intro h; cases h)) _
          (show M.a.read nz = some v by rw [h1]; exact v1)).bind ?_
        refine Does.bind (m1 := arrMem ({ M with edges := o1 } : FmtMem E).arrs) (Does.st (k := FmtArr.edges)
          ⟨rfl, by show c i ≤ nz; omega, by show nz < c (i + 1); omega⟩ o2
          (by intro k' hk; cases k' <;> first | rfl | exact absurd rfl hk)) ?_
        have e : u.2 - o.2 + 1 = u.2 + 1 - o.2 := by omega
        show Does _ _ (Pure.pure (u.2 - o.2 + 1)) _ (u.2 + 1 - o.2) _
        rw [e]
        exact Does.pure _ _) (by simp) hg
      have hres : c (i + 1) - c i = o'.2 - o.2 := by omega
      simp only [Nat.sub_self] at key
      rw [hres]
      exact key
  · intro chunks hc'
    rw [redSum_eq hc']
    have hsum : ∀ k, k ≤ t.numRows → ((List.range k).map (fun i => if i < t.numRows then c (i + 1) - c i else 0)).sum = c k := by
      intro k
      induction k with
      | zero => intro _; rw [ok.c0]; rfl
      | succ k ih =>
        intro hk
        have := ok.mono k (by omega)
        rw [List.range_succ, List.map_append, List.sum_append, ih (by omega)]
        simp only [List.map_cons, List.map_nil, List.sum_cons, List.sum_nil]
        rw [if_pos (by omega)]
        omega
    rw [hsum _ (Nat.le_refl _), ok.cm]

/-- The tiles of the sample, and what `get_edges` has for them. -/
example : ((COO.build (some 40) fmtFresh 2 (insSort compareSrcDst) fmtEdges 40 17 10 20).bind (fun t =>
      t.getEdges 10 20)).map List.length = some 20 ∧
    ((COO.buildSimd fmtFresh 2 (insSort compareSimd) (fun _ => insSort compareBin) fmtEdges 40 17 10 20).bind (fun t =>
      t.getEdges 10 20)).map List.length = some 20 ∧
    ((CSR.build fmtFresh 2 (insSort compareSrcDst) fmtEdges 40 17 10 20).bind (fun r =>
      r.2.getEdges (fun _ => ⟨0, 0, 0⟩) 10 20)).map List.length = some 20 ∧
    ((DCSR.build (some 40) fmtFresh 2 (insSort compareSrcDst) fmtEdges 40 17 10 20).bind (fun t =>
      t.getEdges (fun _ => ⟨0, 0, 0⟩) 10 20)).map List.length = some 20 ∧
    (DCSR.build (some 40) fmtFresh 2 (insSort compareSrcDst) fmtEdges 40 17 10 20).map DCSR.numRows = some 3 ∧
    IsSplit 3 [[2], [0, 1]] ∧ SortsBy compareSrcDst (insSort (compareSrcDst (E := Nat))) ∧ EdgesIn 40 17 10 20 fmtEdges :=
  ⟨by decide +kernel, by decide +kernel, by decide +kernel, by decide +kernel, by decide +kernel,
    (List.perm_middle (l₁ := [0, 1]) (l₂ := [])).symm, insSort_srcDst, fmtEdges_in⟩

end GraphMat
