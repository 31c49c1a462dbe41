import Verif.Proofs.BlockPrecond
import Verif.Proofs.SolverStatistics
import Verif.Props.BlockOperators
import Mathlib.Algebra.Field.Rat
import Mathlib.Data.List.GetD
/-
C106-C111: the matrix-free block preconditioners.
-/
namespace Verif
open GridAssembler LocalOp LocalOp.Spec BlockOp BlockOp.Spec BlockPrec BlockPrec.Spec

section
variable {K : Type} [Field K]

/-- **C106 (block Jacobi).** The block Jacobi preconditioner with assembled blocks solves, in each cell of a scalar problem, the
system with the cell's diagonal block of the matrix, whatever the result vector holds before, if Eigen's decomposition of that
block is one. -/
theorem C106_block_jacobi_partial (ap : Bool) (cells : List Cell) (hg : ProperGrid ap cells) (hs : SharedFaces ap cells)
    (lop : Lop K) (x : GDof → K) (hT : PlainTerms lop) (h : Assembled ap cells lop x) (hL : LocalDiagonal lop)
    (hS : ScalarSpace lop) (c : Cell) (hc : c ∈ cells) (hP : NotPeriodic c) (size : Nat)
    (lu : Nat → (Nat → Nat → K) → (Nat → Nat → K) × (Nat → Nat))
    (hlu : let A := fun i j => matrix ap cells lop x (c.id, 0, i) (c.id, 0, j)
      IsLU size A (lu size A).1 (lu size A).2) (z y : Nat → K) (i : Nat) (hi : i < size) :
    ∑ j ∈ Finset.range size, matrix ap cells lop x (c.id, 0, i) (c.id, 0, j) *
      assembledApply
        (assembledSetup lu size (assembleLocalDiagonalBlock ap (blockDiagonal lop) c fun a => x (c.id, a))) size z y j = z i := by
  have hA : eigenView (assembleLocalDiagonalBlock ap (blockDiagonal lop) c fun a => x (c.id, a)) =
      fun i j => matrix ap cells lop x (c.id, 0, i) (c.id, 0, j) := by
    funext i j
    rw [eigenView_total _ (scalar_local ap lop hS c _)]
    exact C105_local_block_partial ap cells hg hs lop x hT h hL c hc hP (0, i) (0, j)
  unfold assembledSetup
  rw [hA]
  exact lu_solve size _ _ _ hlu z y i hi

/-- **C107 (block SOR sweep).** One application of the block SOR preconditioner with the relaxation factor `omega`, to the
vector `d` and with the initial value `v₀`, gives the vector `v` with
`D_c (v_c - (1-omega) v₀_c) = omega (d_c - ∑ over the cells before c of A_{ck} v_k - ∑ over the cells after c of A_{ck} v₀_k)`
for each cell `c`: blocks of cells that have been treated enter with their new values, all others with their old ones. -/
theorem C107_block_sor_sweep (interior : Nat → Bool) (solve : Nat → (LDof → K) → LDof → K) (omega : K) (x d : GDof → K)
    (ap : Bool) (cells : List Cell) (hg : ProperGrid ap cells) (hs : SharedFaces ap cells) (lop : Lop K)
    (hsk : lop.doAlphaSkeleton = true) (dofs : Nat → List LDof) (hA : ApplyIsJacobian lop dofs)
    (h : Assembled ap cells lop x) (hint : ∀ c ∈ cells, interior c.id = true)
    (hinv : InvertsBlocks cells dofs (matrix ap cells lop x) solve) (v₀ : GDof → K) :
    ∃ v, sorSweep ap cells interior (blockOffDiagonal lop) solve omega x d v₀ = some v ∧
      ∀ pre c post, cells = pre ++ c :: post → ∀ a ∈ dofs c.id,
        dot (dofs c.id) (fun b => matrix ap cells lop x (c.id, a) (c.id, b))
          (fun b => v (c.id, b) - (1 - omega) * v₀ (c.id, b)) =
        omega * (d (c.id, a) - dot (allDofs cells dofs)
          (fun g => if c.id = g.1 then 0 else matrix ap cells lop x (c.id, a) g) (mixed pre v₀ v)) :=
  sor_sweep interior solve omega x d ap cells hg hs lop hsk dofs hA (assembled_indexFree h) (assembled_cases h) hint hinv v₀

/-- **C107 (with block Jacobi).** The block SOR preconditioner of a scalar problem that inverts its blocks with the block Jacobi
preconditioner, from the initial value 0 and with `omega = 1`, solves the block lower triangular system: the residual of
each row with the blocks on and below the diagonal vanishes. -/
theorem C107_block_gauss_seidel_partial (interior : Nat → Bool) (x d : GDof → K)
    (ap : Bool) (cells : List Cell) (hg : ProperGrid ap cells) (hs : SharedFaces ap cells) (lop : Lop K)
    (hT : PlainTerms lop) (size : Nat → Nat) (hA : ApplyIsJacobian lop (scalarDofs size))
    (h : Assembled ap cells lop x) (hL : LocalDiagonal lop) (hS : ScalarSpace lop) (hP : ∀ c ∈ cells, NotPeriodic c)
    (hint : ∀ c ∈ cells, interior c.id = true)
    (lu : Nat → (Nat → Nat → K) → (Nat → Nat → K) × (Nat → Nat))
    (hlu : ∀ c ∈ cells, let A := fun i j => matrix ap cells lop x (c.id, 0, i) (c.id, 0, j)
      IsLU (size c.id) A (lu (size c.id) A).1 (lu (size c.id) A).2)
    (cache : Nat → (Nat → Nat → K) × (Nat → Nat))
    (hcache : ∀ c ∈ cells, cache c.id =
      assembledSetup lu (size c.id) (assembleLocalDiagonalBlock ap (blockDiagonal lop) c fun a => x (c.id, a))) :
    ∃ v, sorSweep ap cells interior (blockOffDiagonal lop)
        (fun c r b => assembledApply (cache c) (size c) (fun i => r (0, i)) (fun _ => 0) b.2) 1 x d (fun _ => 0) = some v ∧
      ∀ pre c post, cells = pre ++ c :: post → ∀ a ∈ scalarDofs size c.id,
        dot (allDofs (pre ++ [c]) (scalarDofs size)) (fun g => matrix ap cells lop x (c.id, a) g) v = d (c.id, a) := by
  have hinv : InvertsBlocks cells (scalarDofs size) (matrix ap cells lop x)
      (fun c r b => assembledApply (cache c) (size c) (fun i => r (0, i)) (fun _ => 0) b.2) := by
    intro c hc r a ha
    obtain ⟨i, hi, rfl⟩ := List.mem_map.1 ha
    dsimp only
    rw [hcache c hc]
    have := C106_block_jacobi_partial ap cells hg hs lop x hT h hL hS c hc (hP c hc) (size c.id) lu (hlu c hc)
      (fun i => r (0, i)) (fun _ => 0) i (List.mem_range.1 hi)
    rw [← this]
    unfold dot scalarDofs
    rw [List.map_map, ← sum_range_list]
    rfl
  obtain ⟨v, h1, h2⟩ := C107_block_sor_sweep interior _ 1 x d ap cells hg hs lop hT.skeleton (scalarDofs size) hA h hint hinv
    fun _ => 0
  refine ⟨v, h1, fun pre c post hcells a ha => ?_⟩
  have hc : c ∈ cells := by rw [hcells]; simp
  have h3 := h2 pre c post hcells a ha
  simp only [sub_self, zero_mul, sub_zero, one_mul] at h3
  have hnd : (pre ++ c :: post).map Cell.id |>.Nodup := hcells ▸ hg.nodup
  have hcpre : ∀ c' ∈ pre, c.id ≠ c'.id := by
    intro c' hc' heq
    rw [List.map_append, List.nodup_append] at hnd
    exact hnd.2.2 c'.id (List.mem_map_of_mem hc') c.id (by simp) heq.symm
  have hpost : ∀ c' ∈ c :: post, c'.id ∉ ids pre := by
    intro c' hc' hmem
    rw [List.map_append, List.nodup_append] at hnd
    exact hnd.2.2 c'.id hmem c'.id (List.mem_map_of_mem hc') rfl
  have split : ∀ (l l' : List Cell) (row w : GDof → K), dot (allDofs (l ++ l') (scalarDofs size)) row w =
      dot (allDofs l (scalarDofs size)) row w + dot (allDofs l' (scalarDofs size)) row w := by
    intro l l' row w
    unfold dot allDofs
    rw [List.flatMap_append, List.map_append, List.sum_append]
  have hrest : dot (allDofs (c :: post) (scalarDofs size))
      (fun g => if c.id = g.1 then 0 else matrix ap cells lop x (c.id, a) g) (mixed pre (fun _ => 0) v) = 0 := by
    unfold dot
    refine List.sum_eq_zero fun q hq => ?_
    obtain ⟨g, hg', rfl⟩ := List.mem_map.1 hq
    obtain ⟨c', hc', hgc⟩ := List.mem_flatMap.1 hg'
    obtain ⟨b, _, rfl⟩ := List.mem_map.1 hgc
    unfold mixed
    rw [if_neg (hpost c' hc'), mul_zero]
  have hpre : dot (allDofs pre (scalarDofs size))
      (fun g => if c.id = g.1 then 0 else matrix ap cells lop x (c.id, a) g) (mixed pre (fun _ => 0) v) =
      dot (allDofs pre (scalarDofs size)) (fun g => matrix ap cells lop x (c.id, a) g) v := by
    unfold dot
    congr 1
    refine List.map_congr_left fun g hg' => ?_
    obtain ⟨c', hc', hgc⟩ := List.mem_flatMap.1 hg'
    obtain ⟨b, _, rfl⟩ := List.mem_map.1 hgc
    unfold mixed
    rw [if_pos (show (c'.id, b).1 ∈ ids pre from List.mem_map_of_mem hc')]
    dsimp only
    rw [if_neg (hcpre c' hc')]
  have hone : dot (allDofs [c] (scalarDofs size)) (fun g => matrix ap cells lop x (c.id, a) g) v =
      dot (scalarDofs size c.id) (fun b => matrix ap cells lop x (c.id, a) (c.id, b)) (fun b => v (c.id, b)) := by
    unfold dot allDofs
    rw [List.flatMap_cons, List.flatMap_nil, List.append_nil, List.map_map]
    rfl
  have hall : dot (allDofs cells (scalarDofs size))
      (fun g => if c.id = g.1 then 0 else matrix ap cells lop x (c.id, a) g) (mixed pre (fun _ => 0) v) =
      dot (allDofs pre (scalarDofs size)) (fun g => matrix ap cells lop x (c.id, a) g) v := by
    conv_lhs => rw [show allDofs cells (scalarDofs size) = allDofs (pre ++ c :: post) (scalarDofs size) by rw [hcells]]
    rw [split, hrest, add_zero, hpre]
  rw [split, hone, h3, hall]
  ring

end

/-- **C108 (block sizes).** The block SOR preconditioner stays within its vectors in all cells if and only if all cells have
equally many degrees of freedom: it always works on as many entries as the largest cell has. -/
theorem C108_block_sizes_partial (sizes : List Nat) :
    (∀ c < sizes.length, transformInBounds sizes c = true ∧ copyInBounds sizes c = true) ↔
      ∀ s ∈ sizes, ∀ s' ∈ sizes, s = s' := by
  have hfold : ∀ (l : List Nat) (m : Nat), m ≤ l.foldl max m ∧ ∀ s ∈ l, s ≤ l.foldl max m := by
    intro l
    induction l with
    | nil => intro m; simp
    | cons a l ih =>
      intro m
      have := ih (max m a)
      simp only [List.foldl_cons, List.mem_cons, forall_eq_or_imp]
      exact ⟨by omega, by omega, this.2⟩
  have hatt : ∀ (l : List Nat) (m : Nat), l.foldl max m = m ∨ l.foldl max m ∈ l := by
    intro l
    induction l with
    | nil => intro m; simp
    | cons a l ih =>
      intro m
      rcases ih (max m a) with h | h
      · rw [List.foldl_cons, h]
        rcases Nat.le_total m a with h' | h'
        · right; simp [Nat.max_eq_right h']
        · left; exact Nat.max_eq_left h'
      · right; simp [h]
  have hle := (hfold sizes 0).2
  constructor
  · intro h
    have hall : ∀ s ∈ sizes, s = maxLocalSize sizes := by
      intro s hs
      obtain ⟨c, hc, rfl⟩ := List.mem_iff_getElem.1 hs
      have h1 := (h c hc).2
      simp only [copyInBounds, List.getD_eq_getElem _ _ hc, decide_eq_true_eq] at h1
      exact le_antisymm (hle _ hs) h1
    intro s hs s' hs'
    rw [hall s hs, hall s' hs']
  · intro h c hc
    have hmax : maxLocalSize sizes = sizes[c] := by
      rcases hatt sizes 0 with h0 | h0
      · have := hle sizes[c] (List.getElem_mem hc)
        show sizes.foldl max 0 = _
        omega
      · exact h _ h0 _ (List.getElem_mem hc)
    refine ⟨?_, ?_⟩
    · simp only [transformInBounds, decide_eq_true_eq]
      rw [hmax]
      have h1 : sizes.sum = (sizes.take c).sum + (sizes.drop c).sum := by
        rw [← List.sum_append, List.take_append_drop]
      rw [h1, List.drop_eq_getElem_cons hc, List.sum_cons]
      omega
    · simp only [copyInBounds, List.getD_eq_getElem _ _ hc, decide_eq_true_eq]
      exact le_of_eq hmax

section Lifecycle
variable {U : Type}

theorem run_append (h l : List (PrecOp U)) : run (h ++ l) = (run h).bind fun s => l.foldlM precStep s := by
  unfold run
  rw [List.foldlM_append]
  rfl

theorem foldl_point (l : List (PrecOp U)) : ∀ s s' : PrecState U, l.foldlM precStep s = some s' →
    s'.u = (lastPoint l).orElse fun _ => s.u := by
  induction l with
  | nil => intro s s' h; cases h; rfl
  | cons o l ih =>
    intro s s' h
    rw [List.foldlM_cons] at h
    cases o with
    | setLinearizationPoint u =>
      have h' : l.foldlM precStep { s with u := some u } = some s' := h
      rw [ih _ _ h', lastPoint]
      cases lastPoint l <;> rfl
    | setRequireSetup b =>
      have h' : l.foldlM precStep { s with requireSetup := b } = some s' := h
      rw [ih _ _ h']; rfl
    | pre =>
      cases hu : s.u with
      | none => simp [precStep, hu] at h
      | some u =>
        cases hr : s.requireSetup with
        | false =>
          have h' : l.foldlM precStep s = some s' := by simpa [precStep, hu, hr] using h
          rw [ih _ _ h', hu]; rfl
        | true =>
          have h' : l.foldlM precStep ⟨false, some u, some u⟩ = some s' := by simpa [precStep, hu, hr] using h
          rw [ih _ _ h']; rfl

theorem foldl_kept (l : List (PrecOp U)) (hl : ∀ o ∈ l, ∀ b, o ≠ .setRequireSetup b) : ∀ s s' : PrecState U,
    s.requireSetup = false → l.foldlM precStep s = some s' → s'.requireSetup = false ∧ s'.blocks = s.blocks := by
  induction l with
  | nil => intro s s' hs h; cases h; exact ⟨hs, rfl⟩
  | cons o l ih =>
    intro s s' hs h
    rw [List.foldlM_cons] at h
    cases o with
    | setLinearizationPoint u =>
      have h' : l.foldlM precStep { s with u := some u } = some s' := h
      exact ih (fun o ho => hl o (by simp [ho])) { s with u := some u } s' hs h'
    | setRequireSetup b => exact absurd rfl (hl (.setRequireSetup b) (by simp) b)
    | pre =>
      cases hu : s.u with
      | none => simp [precStep, hu] at h
      | some u =>
        have h' : l.foldlM precStep s = some s' := by simpa [precStep, hu, hs] using h
        exact ih (fun o ho => hl o (by simp [ho])) _ _ hs h'

theorem foldl_required (l : List (PrecOp U)) (hl : ∀ o ∈ l, ∃ u, o = .setLinearizationPoint u) : ∀ s : PrecState U,
    ∃ s', l.foldlM precStep s = some s' ∧ s'.requireSetup = s.requireSetup := by
  induction l with
  | nil => intro s; exact ⟨s, rfl, rfl⟩
  | cons o l ih =>
    intro s
    obtain ⟨u, rfl⟩ := hl o (by simp)
    obtain ⟨s', h1, h2⟩ := ih (fun o ho => hl o (by simp [ho])) { s with u := some u }
    exact ⟨s', h1, h2⟩

/-- **C109 (what is inverted).** After a call of `setRequireSetup(true)` the next `pre()` sets the blocks up at the
linearisation point set last before it; `apply` uses those blocks until `setRequireSetup` is called again, whatever happens in
between, and whatever happened before. -/
theorem C109_setup_point_partial (h mid rest : List (PrecOp U))
    (hmid : ∀ o ∈ mid, ∃ u, o = .setLinearizationPoint u) (hrest : ∀ o ∈ rest, ∀ b, o ≠ .setRequireSetup b)
    (s : PrecState U) (hs : run (h ++ .setRequireSetup true :: mid ++ .pre :: rest) = some s) :
    precApply s = lastPoint (h ++ mid) ∧ (lastPoint (h ++ mid)).isSome := by
  rw [show h ++ PrecOp.setRequireSetup true :: mid ++ PrecOp.pre :: rest =
    (h ++ PrecOp.setRequireSetup true :: mid) ++ ([PrecOp.pre] ++ rest) by simp, run_append] at hs
  obtain ⟨s1, hs1, hs⟩ := Option.bind_eq_some_iff.1 hs
  have hreq : s1.requireSetup = true := by
    rw [run_append] at hs1
    obtain ⟨s0, _, hs0⟩ := Option.bind_eq_some_iff.1 hs1
    rw [List.foldlM_cons] at hs0
    obtain ⟨s', h1, h2⟩ := foldl_required mid hmid { s0 with requireSetup := true }
    have : s' = s1 := by
      have h3 : mid.foldlM precStep { s0 with requireSetup := true } = some s1 := hs0
      rw [h1] at h3
      exact Option.some.inj h3
    rw [← this, h2]
  have hpoint : s1.u = lastPoint (h ++ mid) := by
    have h1 := foldl_point _ _ _ hs1
    rw [h1]
    have hl : ∀ (l : List (PrecOp U)), lastPoint (l ++ PrecOp.setRequireSetup true :: mid) = lastPoint (l ++ mid) := by
      intro l
      induction l with
      | nil => rfl
      | cons o l ih => cases o <;> simp [lastPoint, ih]
    rw [hl]
    cases lastPoint (h ++ mid) <;> rfl
  rw [List.singleton_append, List.foldlM_cons] at hs
  cases hu : s1.u with
  | none => simp [precStep, hu] at hs
  | some u =>
    have h2 : rest.foldlM precStep ⟨false, some u, some u⟩ = some s := by simpa [precStep, hu, hreq] using hs
    obtain ⟨h3, h4⟩ := foldl_kept rest hrest _ _ rfl h2
    have h5 := foldl_point _ _ _ h2
    rw [← hpoint, hu]
    refine ⟨?_, rfl⟩
    unfold precApply
    have h6 : s.u.isNone = false := by
      rw [h5]
      cases lastPoint rest <;> rfl
    rw [h3, h6, h4]
    rfl

/-- **C109 (no use before the setup).** `apply` never inverts blocks that were not set up: if it gets as far as inverting
blocks then `pre()` was called before with a linearisation point set. -/
theorem C109_never_without_setup (ops : List (PrecOp U)) (s : PrecState U) (hs : run ops = some s) (u : U)
    (hu : precApply s = some u) : ∃ h rest, ops = h ++ .pre :: rest ∧ lastPoint h = some u := by
  have key : ∀ (l h : List (PrecOp U)) (s s' : PrecState U), s.u = lastPoint h →
      (s.blocks = some u → ∃ h' rest, h = h' ++ .pre :: rest ∧ lastPoint h' = some u) →
      l.foldlM precStep s = some s' → s'.blocks = some u → ∃ h' rest, h ++ l = h' ++ .pre :: rest ∧ lastPoint h' = some u := by
    intro l
    have lp : ∀ (h : List (PrecOp U)) (o : PrecOp U), lastPoint (h ++ [o]) =
        (lastPoint [o]).orElse fun _ => lastPoint h := by
      intro h o
      induction h with
      | nil => cases o <;> rfl
      | cons o' h ih =>
        cases o' <;> simp only [List.cons_append, lastPoint, ih]
        cases o <;> rfl
    induction l with
    | nil =>
      intro h s s' _ hb hl hs'
      cases hl
      simpa using hb hs'
    | cons o l ih =>
      intro h s s' hp hb hl hs'
      rw [List.foldlM_cons] at hl
      obtain ⟨s1, hs1, hl⟩ := Option.bind_eq_some_iff.1 hl
      have := ih (h ++ [o]) s1 s' ?_ ?_ hl hs'
      · simpa using this
      · rw [lp]
        cases o with
        | setLinearizationPoint v => cases hs1; rfl
        | setRequireSetup b => cases hs1; exact hp
        | pre =>
          cases hu' : s.u with
          | none => simp [precStep, hu'] at hs1
          | some v =>
            rw [← hp, hu']
            cases hr : s.requireSetup with
            | false =>
              have h1 : s = s1 := by simpa [precStep, hu', hr] using hs1
              rw [← h1, hu']; rfl
            | true =>
              have h1 : (⟨false, some v, some v⟩ : PrecState U) = s1 := by simpa [precStep, hu', hr] using hs1
              rw [← h1]; rfl
      · intro hb1
        have keep : s1.blocks = s.blocks → ∃ h' rest, h ++ [o] = h' ++ PrecOp.pre :: rest ∧ lastPoint h' = some u := by
          intro he
          obtain ⟨h', rest, h1, h2⟩ := hb (he ▸ hb1)
          exact ⟨h', rest ++ [o], by simp [h1], h2⟩
        cases o with
        | setLinearizationPoint v => cases hs1; exact keep rfl
        | setRequireSetup b => cases hs1; exact keep rfl
        | pre =>
          cases hu' : s.u with
          | none => simp [precStep, hu'] at hs1
          | some v =>
            cases hr : s.requireSetup with
            | false =>
              have h1 : s = s1 := by simpa [precStep, hu', hr] using hs1
              exact keep (by rw [h1])
            | true =>
              have h1 : (⟨false, some v, some v⟩ : PrecState U) = s1 := by simpa [precStep, hu', hr] using hs1
              refine ⟨h, [], rfl, ?_⟩
              rw [← hp, hu', ← hb1, ← h1]
  have hblocks : s.blocks = some u := by
    unfold precApply at hu
    split at hu
    · exact absurd hu (by simp)
    · split at hu
      · exact absurd hu (by simp)
      · exact hu
  simpa using key ops [] PrecState.initial s rfl (by simp [PrecState.initial]) hs hblocks

/-- **C109 (no linearisation point).** For a nonlinear problem `pre()` throws if no linearisation point was set. -/
theorem C109_needs_point (ops : List (PrecOp U)) (h : lastPoint ops = none) : run (ops ++ [.pre]) = none := by
  rw [run_append]
  cases hs : run ops with
  | none => rfl
  | some s =>
    have h1 := foldl_point _ _ _ hs
    rw [h] at h1
    have h2 : s.u = none := h1
    simp [precStep, h2]

end Lifecycle

/-- **C110 (diagonal of the iterative solver).** The first setup of the block Jacobi preconditioner with iteratively inverted
blocks stores the inverses of the diagonal entries. -/
theorem C110_inverse_diagonal_partial {K : Type} [Field K] (size : Nat) (calls : Calls Nat K) (h : ∀ q ∈ calls, q.1 < size)
    (i : Nat) (hi : i < size) : (iterativeSetup [] size calls).getD i 0 = 1 / total calls i := by
  have := (iterativeSetup_value [] size (Or.inl rfl) calls h).2 i hi
  simpa using this

/-- **C111 (statistics of integers).** Number, mean and variance of integral data do not depend on how the data are distributed
over the processes. -/
theorem C111_statistics_partial (procs : List (List Int)) :
    statSize (asRat procs) = procs.flatten.length ∧
    (procs.flatten ≠ [] →
      statAvg (asRat procs) = some ((procs.flatten.map fun n : Int => (n : ℚ)).sum / procs.flatten.length)) ∧
    (2 ≤ procs.flatten.length → ∃ mean, statAvg (asRat procs) = some mean ∧ statVariance (asRat procs) =
      some ((procs.flatten.map fun n : Int => ((n : ℚ) - mean) ^ 2).sum / (procs.flatten.length - 1))) := by
  have havg : procs.flatten ≠ [] →
      statAvg (asRat procs) = some ((procs.flatten.map fun n : Int => (n : ℚ)).sum / procs.flatten.length) := by
    intro h
    unfold statAvg
    rw [statSize_asRat, if_neg (by rwa [List.length_eq_zero_iff]), sums_asRat]
  refine ⟨statSize_asRat procs, havg, fun h => ⟨_, havg (by intro h0; simp [h0] at h), ?_⟩⟩
  unfold statVariance
  simp only [statSize_asRat, sums_asRat, squares_asRat]
  have h2 : (2 : ℚ) ≤ procs.flatten.length := by exact_mod_cast h
  have h1 : ((procs.flatten.length : ℕ) : ℚ) ≠ 0 := by linarith
  have h3 : ((procs.flatten.length : ℕ) : ℚ) - 1 ≠ 0 := by linarith
  rw [if_neg (by simp only [not_or]; exact ⟨h1, h3⟩), sum_sq_dev]
  congr 1
  field_simp
  ring

/-- **C111 (extremes).** Minimum and maximum are those of all data, if every process has some. -/
theorem C111_extremes_partial (procs : List (List ℚ)) (hp : procs ≠ []) (hd : ∀ d ∈ procs, d ≠ []) :
    (∃ m, statMin procs = some m ∧ m ∈ procs.flatten ∧ ∀ x ∈ procs.flatten, m ≤ x) ∧
    (∃ m, statMax procs = some m ∧ m ∈ procs.flatten ∧ ∀ x ∈ procs.flatten, x ≤ m) :=
  ⟨statMin_spec procs hp hd, statMax_spec procs hp hd⟩

/-! ### Concrete cases -/
section Examples
open BlockExample

/-- An LU decomposition of matrices with one row. -/
def luOne (_ : Nat) (A : Nat → Nat → ℚ) : (Nat → Nat → ℚ) × (Nat → Nat) := (A, id)

theorem scalarOne (two : Bool) : ScalarSpace (lop two) := by
  refine ⟨?_, ?_, ?_⟩ <;> intros <;> cases two <;> simp_all [lop]
  · rename_i h
    rcases h with rfl | rfl | rfl | rfl <;> exact ⟨rfl, rfl⟩
  · rename_i h
    rcases h with rfl | rfl <;> exact ⟨rfl, rfl⟩

/-- The conditions of C106 and C107 hold for the diffusion-reaction operator on two cells; the decomposition has one row. -/
example : ScalarSpace (lop false) ∧ (∀ c ∈ grid, let A := fun i j => matrix true grid (lop false) vec (c.id, 0, i) (c.id, 0, j)
    IsLU 1 A (luOne 1 A).1 (luOne 1 A).2) ∧ ApplyIsJacobian (lop false) (scalarDofs fun _ => 1) := by
  refine ⟨scalarOne false, ?_, apply false⟩
  intro c hc
  have h6 : ∀ c ∈ grid, matrix true grid (lop false) vec (c.id, 0, 0) (c.id, 0, 0) ≠ 0 := by decide +kernel
  refine ⟨by simp [luOne], by omega, ?_, ?_⟩
  · intro i hi j hj
    have : i = 0 := by omega
    have : j = 0 := by omega
    subst i j
    simp [luOne, lower, upper]
  · intro i hi
    have : i = 0 := by omega
    subst i
    exact h6 c hc

/-- A sweep on two cells: the second cell sees the new value of the first. -/
example : (sorSweep true grid (fun _ => true) (blockOffDiagonal (lop false))
    (fun c r b => r b / (if c = 0 then 6 else 7)) 1 vec (fun g => if g.1 = 0 then 12 else 19) (fun _ => 0)).map
    (fun v => (v (0, 0, 0), v (1, 0, 0))) = some (2, 3) := by
  decide +kernel

/-- An LU decomposition with two rows and a permutation: of the matrix with the rows (0, 2) and (3, 4). -/
example : IsLU 2 (fun i j => ([[(0 : ℚ), 2], [3, 4]].getD i []).getD j 0) (fun i j => ([[(3 : ℚ), 4], [0, 2]].getD i []).getD j 0)
    (fun i => 1 - i) := by
  refine ⟨by intro i hi; omega, by intro i hi j hj h; omega, by decide +kernel, by decide +kernel⟩

example : ∀ s ∈ [3, 3, 3], ∀ s' ∈ [3, 3, 3], s = s' := by decide

example : run [PrecOp.setLinearizationPoint 1, .pre, .setLinearizationPoint 2, .setRequireSetup true, .setLinearizationPoint 3,
    .pre, .setLinearizationPoint 4, .pre] = some ⟨false, some 4, some 3⟩ := by decide

example : iterativeSetup [] 2 [(0, (2 : ℚ)), (1, 4), (0, 3)] = [1 / 5, 1 / 4] := by decide +kernel

example : statVariance (asRat [[1, 2], [], [6]]) = some 7 := by decide +kernel

example : statMin [[3, 1], [2]] = some 1 ∧ statMax [[3, 1], [2]] = some 3 := by decide +kernel

end Examples

/-! ### What is not true of the code -/

/-- **C106 (false for systems).** The view that the blocks are assembled through ignores the spaces, so that entries of different
components of a system are added to the same entry of the matrix. -/
theorem C106_systems_false : ∃ calls : Calls (LDof × LDof) ℚ,
    total calls ((0, 0), (0, 0)) = 1 ∧ total calls ((1, 0), (1, 0)) = 2 ∧ eigenView calls 0 0 = 3 :=
  ⟨[(((0, 0), (0, 0)), 1), (((1, 0), (1, 0)), 2)], by decide +kernel, by decide +kernel, by decide +kernel⟩

/-- **C108 (false in general).** With two cells that have two degrees of freedom and one, the preconditioner reads past the end
of the vector it is applied to. -/
theorem C108_block_sizes_false : ∃ sizes c, c < sizes.length ∧ transformInBounds sizes c = false ∧
    copyInBounds sizes c = false :=
  ⟨[2, 1], 1, by decide, by decide, by decide⟩

/-- **C109 (false in general).** A new linearisation point has no effect on the blocks that `apply` inverts: `pre()` does not set
them up again, and nothing in the library asks for it. -/
theorem C109_new_point_false : ∃ (u₁ u₂ : Nat) (s : PrecState Nat), u₁ ≠ u₂ ∧
    run [.setLinearizationPoint u₁, .pre, .setLinearizationPoint u₂, .pre] = some s ∧ precApply s = some u₁ :=
  ⟨1, 2, ⟨false, some 2, some 1⟩, by decide, by decide, by decide⟩

/-- **C110 (false for later setups).** A second setup adds the diagonal entries to the inverses stored by the first. -/
theorem C110_second_setup_false : ∃ calls : Calls Nat ℚ,
    iterativeSetup (iterativeSetup [] 1 calls) 1 calls ≠ iterativeSetup [] 1 calls ∧ ∀ q ∈ calls, q.1 < 1 :=
  ⟨[(0, 2)], by decide +kernel, by decide⟩

/-- **C111 (false for fractions).** The sum is kept in an `int`, so that the mean of 1/2 and 1/2 is 0. -/
theorem C111_fractions_false : statAvg [[1 / 2, 1 / 2]] = some 0 := by decide +kernel

/-- **C111 (false without data).** If a process has no data its minimum is read from the end of an empty container. -/
theorem C111_process_without_data_false : statMin [[1], []] = none := by decide +kernel

/-- **C111 (false for one invocation).** The standard deviation of a single number is not a number. -/
theorem C111_single_false : statVariance [[5]] = none := by decide +kernel

end Verif
