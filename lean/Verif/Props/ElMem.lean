import Verif.Lemmas.ElMem

/-!
# C64: edge lists release their arrays exactly once
-/
namespace GraphMat

/-- A program that makes, loads, transforms, filters and clears edge lists in any order and clears all of them at the end follows
and releases nothing that is not live, and forgets exactly as many arrays as `lostBy` tells from the numbers of edges: that of a
list that is loaded again, and every array of which no edge is left. -/
theorem edgelist_leak (nrank : Nat) (ops : List ElStep) (h : Heap) (hh : h.Ok) :
    ∃ h' M, elLives nrank ops h = some ((), h') ∧ h'.live.Perm (M ++ h.live) ∧ M.length = lostBy nrank ops [] := by
  obtain ⟨_, h', X, e, hX, M, hM, hP⟩ := elLives_runs nrank ops h.live h ⟨hh, List.Perm.refl _⟩
  exact ⟨h', M, e, hX.2.trans hP, hM⟩

/-- The memory of all lists comes back exactly if nothing is lost in this sense. Missing: programs that load a list again or lose
all edges of one, which forget arrays (`edgelist_leak`). -/
theorem edgelist_memory_partial (nrank : Nat) (ops : List ElStep) : Balanced (elLives nrank ops) ↔ lostBy nrank ops [] = 0 := by
  constructor
  · intro hb
    obtain ⟨h', M, e, hP, hM⟩ := edgelist_leak nrank ops ⟨0, []⟩ ⟨List.nodup_nil, by simp⟩
    obtain ⟨a, h'', e', hP'⟩ := hb ⟨0, []⟩ ⟨List.nodup_nil, by simp⟩
    rw [e] at e'
    cases e'
    rw [← hM]
    have := hP.symm.trans hP'
    simpa using this.length_eq
  · intro h0 h hh
    obtain ⟨h', M, e, hP, hM⟩ := edgelist_leak nrank ops h hh
    rw [h0] at hM
    rw [List.eq_nil_of_length_eq_zero hM] at hP
    exact ⟨(), h', e, hP⟩

/-- a program with two ranks: two lists, one filtered twice as in delta stepping -/
def elDemo : List ElStep :=
  [.declare, .act 0 (.load 6), .act 0 .visit, .act 0 (.shuffle 5), .act 0 (.selfedges (fun i => i != 2)), .act 0 .bidirectional,
   .filter 0 (fun i => i < 3), .filter 1 (fun i => i ≥ 3), .act 2 .clear, .act 0 (.duplicates 4 (fun i => i == 2)),
   .act 1 (.rows (fun i => i == 1)), .act 1 .columns, .act 1 .randomize, .make 0, .make 3, .act 0 (.shuffle 0)]

example : Balanced (elLives 2 elDemo) := (edgelist_memory_partial 2 elDemo).2 (by decide +kernel)
/-- the lists at the end, before they are cleared -/
example : ((runElSteps 2 elDemo []) ⟨0, []⟩).map (fun x => (x.1.map ElMem.nnz, x.2.live.length)) = some ([0, 0, 2, 1, 0], 2) := by
  decide +kernel

/-- loading a list again, removing all edges as self loops, filtering all away by row or into a new list, loading nothing -/
def elLeakDemo : List ElStep :=
  [.declare, .act 0 (.load 6), .act 0 (.load 4), .act 0 (.selfedges (fun _ => false)), .act 0 (.load 0), .act 0 (.load 2),
   .filter 0 (fun _ => false), .act 1 (.rows (fun _ => false))]

example : lostBy 2 elLeakDemo [] = 5 := by decide +kernel
example : ((elLives 2 elLeakDemo) ⟨0, []⟩).map (fun x => x.2.live.length) = some 5 := by decide +kernel
example : ¬ Balanced (elLives 2 elLeakDemo) := fun h => absurd ((edgelist_memory_partial 2 elLeakDemo).1 h) (by decide +kernel)

/-! ### The converter -/

/-- `graph_converter` follows and releases nothing that is not live, whatever the options and the edges of this rank, and forgets
exactly one array if the files of this rank have no edges and one if all edges of this rank are removed as self loops. -/
theorem converter_memory (threads nrank : Nat) (c : ConvMem) (h : Heap) (hh : h.Ok) :
    ∃ h' M, processMem threads nrank c h = some ((), h') ∧ h'.live.Perm (M ++ h.live) ∧ M.length = c.lost := by
  obtain ⟨_, h', X, e, hX, M, hM, hP⟩ := processMem_runs threads nrank c h.live h ⟨hh, List.Perm.refl _⟩
  exact ⟨h', M, e, hX.2.trans hP, hM⟩

/-- files to an archive, with everything switched on -/
def convDemo : ConvMem :=
  { input := .files 7, weights := true, shuffled := 5, loops := some (fun i => i != 0), both := true, upper := true,
    dups := some (3, fun _ => false), randomize := true, write := false,
    graph := some ([some 3, some 0, none, none], [some 2, some 1, none, none], [true, false]) }

/-- an archive to files; all edges of this rank are self loops -/
def convLeakDemo : ConvMem :=
  { input := .archive [some 3, some 0, none, none] [some 2, some 1, none, none] [true, false], weights := false, shuffled := 5,
    loops := some (fun _ => false), both := true, upper := false, dups := some (3, fun _ => false), randomize := false,
    write := true, graph := none }

example : convDemo.lost = 0 := by decide +kernel
example : ((processMem 2 2 convDemo) ⟨0, []⟩).map (fun x => (x.2.next, x.2.live.length)) = some (107, 0) := by decide +kernel
example : convLeakDemo.lost = 1 := by decide +kernel
example : ((processMem 2 2 convLeakDemo) ⟨0, []⟩).map (fun x => x.2.live.length) = some 1 := by decide +kernel
example : ((processMem 2 2 { convLeakDemo with input := .files 0 }) ⟨0, []⟩).map (fun x => x.2.live.length) = some 2 := by
  decide +kernel

end GraphMat
