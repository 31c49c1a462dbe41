import Verif.Proofs.ParallelHelper
import Mathlib.Algebra.Field.Rat
/-
C48: the disjoint partitioning of the DOFs, masking and scalar products.
C85: the neighbouring ranks of the parallel helper.
C86: the data handles for shared DOFs and neighbouring processes.

`Valid L entities ndof ibOnly` describes a distributed grid with a function space, `Interface L ibOnly msgs` the messages of one
communication in any order of delivery.
-/
namespace Verif

open ParallelHelper ParallelHelper.Spec

/-- C48. For every distribution and every order of delivery, after construction of the parallel helper the rank stored for each DOF on each
process is the lowest rank on which its entity is interior or border; the DOF is owned by the process exactly if that is its own rank; a DOF is
a ghost exactly if its copy is neither interior nor border. -/
theorem C48_partition_partial {L : Layout} {entities : List Nat} {ndof : Nat → Nat} {ibOnly : Bool} (hv : Valid L entities ndof ibOnly)
    {msgs : List Msg} (hm : Interface L ibOnly msgs) {p : Nat} (hp : p < L.procs) {c : Copy} (hc : c ∈ L.copies p) {i : Nat} (hi : i ∈ c.dofs) :
    (∃ q, Lowest L c.ent q ∧ (rankPartition L msgs p)[i]? = some q) ∧ (owned p (rankPartition L msgs p) i = true ↔ Lowest L c.ent p) ∧
      (ghosts L msgs p)[i]? = some (!c.ib) := by
  obtain ⟨q, h1, h2⟩ := rankPartition_eq hv hm hp hc hi
  refine ⟨⟨q, h1, h2⟩, ?_, ghosts_eq hv hm hp hc hi⟩
  unfold owned
  rw [h2]
  constructor
  · intro h
    have : q = p := by simpa using h
    rw [← this]; exact h1
  · intro h
    rw [lowest_unique h1 h]
    simp

/-- C48. Every DOF (entity `e`, number `k`) is owned by exactly one process. -/
theorem C48_owner_partial {L : Layout} {entities : List Nat} {ndof : Nat → Nat} {ibOnly : Bool} (hv : Valid L entities ndof ibOnly)
    {msgs : List Msg} (hm : Interface L ibOnly msgs) {e : Nat} (he : e ∈ entities) {k : Nat} (hk : k < ndof e) :
    ∃ p, (p < L.procs ∧ ∃ c ∈ L.copies p, ∃ i, c.ent = e ∧ c.dofs[k]? = some i ∧ owned p (rankPartition L msgs p) i = true) ∧
      ∀ p', (p' < L.procs ∧ ∃ c ∈ L.copies p', ∃ i, c.ent = e ∧ c.dofs[k]? = some i ∧ owned p' (rankPartition L msgs p') i = true) → p' = p := by
  obtain ⟨p, hp⟩ := exists_lowest (hv.somewhere e he)
  have ⟨hlt, ⟨c, hc, hce, hib⟩, _⟩ := hp
  refine ⟨p, ⟨hlt, c, hc, ?_⟩, ?_⟩
  · have hlen : c.dofs.length = ndof e := by
      rcases hv.dofs p hlt c hc with h | h
      · rw [h, hce]
      · rw [h.1] at hib; cases hib
    have hk' : k < c.dofs.length := by omega
    refine ⟨c.dofs[k], hce, List.getElem?_eq_getElem hk', ?_⟩
    rw [(C48_partition_partial hv hm hlt hc (List.getElem_mem hk')).2.1, hce]
    exact hp
  · rintro p' ⟨hlt', c', hc', i, hce', hi, how⟩
    have := (C48_partition_partial hv hm hlt' hc' (List.mem_of_getElem? hi)).2.1.1 how
    rw [hce'] at this
    exact lowest_unique this hp

/-- C48. Every entry of the local containers belongs to a DOF of a copy. -/
theorem C48_covered {L : Layout} {entities : List Nat} {ndof : Nat → Nat} {ibOnly : Bool} (hv : Valid L entities ndof ibOnly) (msgs : List Msg)
    {p : Nat} (hp : p < L.procs) : (rankPartition L msgs p).length = L.size p ∧ ∀ i, i < L.size p → ∃ c ∈ L.copies p, i ∈ c.dofs := by
  refine ⟨rankPartition_length L msgs p, ?_⟩
  intro i hi
  exact List.mem_flatMap.1 ((hv.positions p hp).mem_iff.2 (by simpa using hi))

section
variable {K : Type} [Field K]

/-- C48. For nested vectors of any structure, the local scalar product is the sum of the products of the entries of which the rank is the own
rank; masking keeps these entries and sets all others to zero. -/
theorem C48_local (rank : Nat) (x y : NVec K) (m : NVec Nat) (hy : sameShape x y) (hm : sameShape x m) :
    disjointDot rank x y m = some ((List.range (flat x).length).map fun i =>
      if owned rank (flat m) i then (flat x).getD i 0 * (flat y).getD i 0 else 0).sum ∧
    ∃ x', mask rank x m = some x' ∧ sameShape x' x ∧ ∀ i, i < (flat x).length → (flat x')[i]? =
      some (if owned rank (flat m) i then (flat x).getD i 0 else 0) := by
  refine ⟨?_, ?_⟩
  · rw [disjointDot_eq rank x y m hy hm, zipSum_range rank _ _ _ (shape_length x y hy) (shape_length x m hm)]
    unfold owned
    simp
  · obtain ⟨x', h1, h2, h3⟩ := mask_eq rank x m hm
    refine ⟨x', h1, h2, ?_⟩
    intro i hi
    have hi' : i < (flat m).length := by rw [← shape_length x m hm]; exact hi
    rw [h3 i, List.getElem?_eq_getElem hi, List.getElem?_eq_getElem hi']
    unfold owned
    simp [List.getD, List.getElem?_eq_getElem hi, List.getElem?_eq_getElem hi']

/-- C48. For consistent vectors of any nested structure, the sum over all processes of the local scalar products is the global scalar
product: every DOF counts exactly once. -/
theorem C48_dot_partial {L : Layout} {entities : List Nat} {ndof : Nat → Nat} {ibOnly : Bool} (hv : Valid L entities ndof ibOnly)
    {msgs : List Msg} (hm : Interface L ibOnly msgs) (x y : Nat → NVec K) (ranks : Nat → NVec Nat)
    (hr : ∀ p, p < L.procs → flat (ranks p) = rankPartition L msgs p) (hxy : ∀ p, p < L.procs → sameShape (x p) (y p))
    (hxr : ∀ p, p < L.procs → sameShape (x p) (ranks p)) (X Y : Nat → Nat → K) (hX : Consistent L x X) (hY : Consistent L y Y) :
    ∃ d : Nat → K, (∀ p, p < L.procs → disjointDot p (x p) (y p) (ranks p) = some (d p)) ∧
      ((List.range L.procs).map d).sum = globalDot entities ndof X Y := by
  classical
  refine ⟨fun p => zipSum p (flat (x p)) (flat (y p)) (flat (ranks p)), fun p hp => disjointDot_eq p _ _ _ (hxy p hp) (hxr p hp), ?_⟩
  unfold globalDot
  rw [← sum_owners hv (fun e => ((List.range (ndof e)).map fun k => X e k * Y e k).sum)]
  congr 1
  refine List.map_congr_left ?_
  intro p hp
  rw [List.mem_range] at hp
  rw [zipSum_range p _ _ _ (shape_length _ _ (hxy p hp)) (shape_length _ _ (hxr p hp)), shape_length _ _ (hxr p hp), hr p hp, rankPartition_length,
    ← (List.Perm.map _ (hv.positions p hp)).sum_eq, sum_flatMap']
  congr 1
  refine List.map_congr_left ?_
  intro c hc
  by_cases hl : Lowest L c.ent p
  · rw [if_pos hl]
    obtain ⟨c', hc', he, hib⟩ := hl.2.1
    rw [ent_unique (hv.once p hp) hc' hc he] at hib
    have hlen : c.dofs.length = ndof c.ent := by
      rcases hv.dofs p hp c hc with h | h
      · exact h
      · rw [h.1] at hib; cases hib
    rw [← hlen]
    refine sum_getElem c.dofs _ _ ?_
    intro k i hki
    have hmem := List.mem_of_getElem? hki
    obtain ⟨q, hq1, hq2⟩ := rankPartition_eq hv hm hp hc hmem
    rw [hq2, lowest_unique hq1 hl, if_pos rfl]
    simp [List.getD, hX p hp c hc hib k i hki, hY p hp c hc hib k i hki]
  · rw [if_neg hl]
    refine List.sum_eq_zero ?_
    intro a ha
    obtain ⟨i, hi, rfl⟩ := List.mem_map.1 ha
    obtain ⟨q, hq1, hq2⟩ := rankPartition_eq hv hm hp hc hi
    rw [hq2, if_neg]
    intro h
    rw [Option.some.injEq] at h
    exact hl (h ▸ hq1)

end

/-- Three processes in a row with one cell each (entities 0, 1, 2) and the vertices 10, 11, 12, 13; cells have one DOF, vertices two. Process
1 also stores an overlap copy of cell 2 and of vertex 13, and process 0 a copy of cell 1 that is not in the entity set. -/
private def exampleLayout : Layout where
  procs := 3
  copies := fun p => match p with
    | 0 => [⟨0, true, [0]⟩, ⟨10, true, [1, 2]⟩, ⟨11, true, [3, 4]⟩, ⟨1, false, []⟩]
    | 1 => [⟨11, true, [5, 6]⟩, ⟨1, true, [0]⟩, ⟨12, true, [1, 2]⟩, ⟨2, false, [7]⟩, ⟨13, false, [3, 4]⟩]
    | 2 => [⟨2, true, [0]⟩, ⟨12, true, [4, 3]⟩, ⟨13, true, [1, 2]⟩]
    | _ => []
  size := fun p => match p with
    | 0 => 5
    | 1 => 8
    | 2 => 5
    | _ => 0

private def exampleNdof (e : Nat) : Nat := if e < 10 then 1 else 2

private def exampleMsgs : List Msg :=
  [⟨2, 1, ⟨13, false, [3, 4]⟩⟩, ⟨0, 1, ⟨11, true, [5, 6]⟩⟩, ⟨1, 0, ⟨11, true, [3, 4]⟩⟩, ⟨1, 2, ⟨12, true, [4, 3]⟩⟩, ⟨2, 1, ⟨2, false, [7]⟩⟩,
   ⟨1, 0, ⟨1, false, []⟩⟩, ⟨2, 1, ⟨12, true, [1, 2]⟩⟩]

/-- The distribution of the example is valid. -/
private theorem exampleValid : Valid exampleLayout [0, 1, 2, 10, 11, 12, 13] exampleNdof false where
  ranks := by decide
  positions := by decide
  once := by decide
  distinct := by decide
  known := by decide
  somewhere := by
    intro e he
    simp only [List.mem_cons, List.not_mem_nil, or_false] at he
    rcases he with rfl | rfl | rfl | rfl | rfl | rfl | rfl
    · exact ⟨0, by decide, ⟨0, true, [0]⟩, by decide, rfl, rfl⟩
    · exact ⟨1, by decide, ⟨1, true, [0]⟩, by decide, rfl, rfl⟩
    · exact ⟨2, by decide, ⟨2, true, [0]⟩, by decide, rfl, rfl⟩
    · exact ⟨0, by decide, ⟨10, true, [1, 2]⟩, by decide, rfl, rfl⟩
    · exact ⟨0, by decide, ⟨11, true, [3, 4]⟩, by decide, rfl, rfl⟩
    · exact ⟨1, by decide, ⟨12, true, [1, 2]⟩, by decide, rfl, rfl⟩
    · exact ⟨2, by decide, ⟨13, true, [1, 2]⟩, by decide, rfl, rfl⟩
  dofs := by decide
  restricted := by intro h; cases h

private theorem exampleHasIB (p e : Nat) : HasIB exampleLayout p e ↔ (exampleLayout.copies p).any (fun c => c.ent == e && c.ib) = true := by
  simp [HasIB]

/-- The messages of the example are an interface. -/
private theorem exampleInterface : Interface exampleLayout false exampleMsgs := by
  intro m
  constructor
  · intro h
    simp only [exampleMsgs, List.mem_cons, List.not_mem_nil, or_false] at h
    rw [exampleHasIB]
    rcases h with rfl | rfl | rfl | rfl | rfl | rfl | rfl <;> decide
  · rintro ⟨h1, h2, h3, h4, h5, -⟩
    rw [exampleHasIB] at h5
    obtain ⟨src, dst, c⟩ := m
    have h1 : src < 3 := h1
    have h2 : dst < 3 := h2
    have h4 : c ∈ exampleLayout.copies dst := h4
    have key : ∀ src < 3, ∀ dst < 3, ∀ c ∈ exampleLayout.copies dst, src ≠ dst →
      (exampleLayout.copies src).any (fun c' => c'.ent == c.ent && c'.ib) = true → (⟨src, dst, c⟩ : Msg) ∈ exampleMsgs := by decide
    exact key src h1 dst h2 c h4 h3 h5

/- The ranks of the example. -/
example : (List.range 3).map (rankPartition exampleLayout exampleMsgs) = [[0, 0, 0, 0, 0], [1, 1, 1, 2, 2, 0, 0, 2], [2, 2, 2, 1, 1]] := by decide

example : (List.range 3).map (ghosts exampleLayout exampleMsgs) =
    [[false, false, false, false, false], [false, false, false, true, true, false, false, true], [false, false, false, false, false]] := by decide

/- A consistent vector: all ones, in two blocks on each process. -/
example : Consistent exampleLayout (fun p => NVec.block [.field (List.replicate 2 (1 : ℚ)), .field (List.replicate (exampleLayout.size p - 2) 1)])
    (fun _ _ => 1) := by
  intro p hp c hc _ k i hk
  have hlt := pos_lt exampleValid hp hc (List.mem_of_getElem? hk)
  have hp : p < 3 := hp
  have : flat (NVec.block [.field (List.replicate 2 (1 : ℚ)), .field (List.replicate (exampleLayout.size p - 2) 1)]) =
      List.replicate (exampleLayout.size p) 1 := by
    simp only [flat, flatList, List.append_nil, ← List.replicate_add]
    congr 1
    have h : ∀ p < 3, 2 + (exampleLayout.size p - 2) = exampleLayout.size p := by decide
    exact h p hp
  rw [this]
  simp [hlt]

example : ((List.range 3).map fun p => disjointDot p
      (NVec.block [.field (List.replicate 2 (1 : ℚ)), .field (List.replicate (exampleLayout.size p - 2) 1)])
      (NVec.block [.field (List.replicate 2 (1 : ℚ)), .field (List.replicate (exampleLayout.size p - 2) 1)])
      (NVec.block [.field ((rankPartition exampleLayout exampleMsgs p).take 2), .field ((rankPartition exampleLayout exampleMsgs p).drop 2)])) =
    [some 5, some 3, some 3] := by decide +kernel

/-- C48 fails if a process stores two copies of an entity (grids periodic in a direction that is not distributed): the periodic copy is
owned, too, and counts twice; on one process because there is no communication, on several because the process receives its own rank. -/
theorem C48_periodic_false :
    (let L : Layout := ⟨1, fun _ => [⟨0, true, [0]⟩, ⟨0, false, [1]⟩], fun _ => 2⟩
     rankPartition L [⟨0, 0, ⟨0, false, [1]⟩⟩] 0 = [0, 0] ∧
      disjointDot 0 (.field [(1 : ℚ), 1]) (.field [1, 1]) (.field (rankPartition L [⟨0, 0, ⟨0, false, [1]⟩⟩] 0)) = some 2 ∧
      globalDot [0] (fun _ => 1) (fun _ _ => (1 : ℚ)) (fun _ _ => 1) = 1) ∧
    (let L : Layout := ⟨2, fun p => if p = 0 then [⟨0, true, [0]⟩, ⟨0, false, [1]⟩] else [⟨1, true, [0]⟩], fun p => if p = 0 then 2 else 1⟩
     rankPartition L [⟨0, 0, ⟨0, false, [1]⟩⟩] 0 = [0, 0]) := by decide +kernel

/-! ### Neighbours -/

/-- C85, part: the neighbouring ranks are a strictly increasing list of exactly the other processes owning one of the DOFs of this process.
Missing for the full property: processes that share DOFs with this process but own none of them. -/
theorem C85_owners_partial {L : Layout} {entities : List Nat} {ndof : Nat → Nat} {ibOnly : Bool} (hv : Valid L entities ndof ibOnly)
    {msgs : List Msg} (hm : Interface L ibOnly msgs) {p : Nat} (hp : p < L.procs) :
    (neighborRanks p (rankPartition L msgs p)).Pairwise (· < ·) ∧ ∀ q, q ∈ neighborRanks p (rankPartition L msgs p) ↔
      q ≠ p ∧ ∃ c ∈ L.copies p, c.dofs ≠ [] ∧ Lowest L c.ent q := by
  obtain ⟨h1, h2⟩ := foldl_insert (fun r => r ≠ p) (fun r => r) (rankPartition L msgs p)
  refine ⟨h2, ?_⟩
  intro q
  unfold neighborRanks
  rw [h1 q]
  constructor
  · rintro ⟨r, hr, hne, rfl⟩
    refine ⟨hne, ?_⟩
    obtain ⟨i, hi⟩ := List.mem_iff_getElem?.1 hr
    have hlt : i < L.size p := by
      rw [← rankPartition_length L msgs p]
      exact (List.getElem?_eq_some_iff.1 hi).1
    obtain ⟨c, hc, hic⟩ := (C48_covered hv msgs hp).2 i hlt
    obtain ⟨q, hq1, hq2⟩ := rankPartition_eq hv hm hp hc hic
    rw [hq2, Option.some.injEq] at hi
    subst hi
    exact ⟨c, hc, List.ne_nil_of_mem hic, hq1⟩
  · rintro ⟨hne, c, hc, hd, hl⟩
    obtain ⟨i, hi⟩ := List.exists_mem_of_ne_nil _ hd
    obtain ⟨r, hr1, hr2⟩ := rankPartition_eq hv hm hp hc hi
    rw [lowest_unique hr1 hl] at hr2
    exact ⟨q, List.mem_of_getElem? hr2, hne, rfl⟩

/-- C85 fails: two processes with a common vertex are neighbours, but process 0 owns the vertex and its list is empty. -/
theorem C85_false :
    let L : Layout := ⟨2, fun p => if p = 0 then [⟨0, true, [0]⟩, ⟨5, true, [1]⟩] else [⟨5, true, [0]⟩, ⟨1, true, [1]⟩], fun _ => 2⟩
    let msgs : List Msg := [⟨0, 1, ⟨5, true, [0]⟩⟩, ⟨1, 0, ⟨5, true, [1]⟩⟩]
    neighborRanks 0 (rankPartition L msgs 0) = [] ∧ neighborRanks 1 (rankPartition L msgs 1) = [0] := by decide

example : (List.range 3).map (fun p => neighborRanks p (rankPartition exampleLayout exampleMsgs p)) = [[], [0, 2], [1]] := by decide

/-! ### Shared DOFs -/

/-- C86. For every order of delivery, after communication of the handle for shared DOFs a DOF is marked exactly if another process has a
copy of its entity with DOFs. -/
theorem C86_shared {L : Layout} {entities : List Nat} {ndof : Nat → Nat} {ibOnly : Bool} (hv : Valid L entities ndof ibOnly)
    {msgs : List Msg} (hm : AllInterface L msgs) (has : Msg → Bool)
    (hhas : ∀ m ∈ msgs, has m = true ↔ ∃ c ∈ L.copies m.src, c.ent = m.copy.ent ∧ c.dofs ≠ [])
    {p : Nat} (hp : p < L.procs) {c : Copy} (hc : c ∈ L.copies p) {i : Nat} (hi : i ∈ c.dofs) :
    ∃ b, (sharedDofs L has msgs p)[i]? = some b ∧ (b = true ↔ ∃ q, q < L.procs ∧ q ≠ p ∧ ∃ c' ∈ L.copies q, c'.ent = c.ent ∧ c'.dofs ≠ []) := by
  have hsize := pos_lt hv hp hc hi
  unfold sharedDofs
  have hdel : deliverShared has = deliver (fun m (old : Bool) => old || has m) := rfl
  rw [hdel, foldl_deliver _ p i c msgs (by
    intro m hmm hd
    have hmc := ((hm m).1 hmm).2.2.2.1
    rw [hd] at hmc
    exact ⟨nodup_of_mem (dofs_nodup hv hp) hmc, fun h => unique_of_mem (dofs_nodup hv hp) hmc hc h hi, fun h => by rw [h]; exact hi⟩)
    (fun p => List.replicate (L.size p) false) false (by simp [hsize])]
  refine ⟨_, rfl, ?_⟩
  rw [shared_value]
  constructor
  · rintro ⟨m, hmm, hr, hh⟩
    obtain ⟨h1, h2, h3, h4, h5⟩ := (hm m).1 hmm
    obtain ⟨c', hc', he, hd⟩ := (hhas m hmm).1 hh
    exact ⟨m.src, h1, by rw [← hr.1]; exact h3, c', hc', by rw [he, hr.2], hd⟩
  · rintro ⟨q, hq, hne, c', hc', he, hd⟩
    have hmm : (⟨q, p, c⟩ : Msg) ∈ msgs := (hm _).2 ⟨hq, hp, hne, hc, c', hc', he⟩
    exact ⟨⟨q, p, c⟩, hmm, ⟨rfl, rfl⟩, (hhas _ hmm).2 ⟨c', hc', he, hd⟩⟩

/-- C86. For every order of delivery, the handle for neighbours collects the strictly increasing list of exactly the other processes with a
copy of an entity of this process, of the codimensions used. -/
theorem C86_neighbors {L : Layout} {msgs : List Msg} (hm : AllInterface L msgs) (contains : Nat → Bool) {p : Nat} (hp : p < L.procs) :
    (neighbors contains p msgs).Pairwise (· < ·) ∧ ∀ q, q ∈ neighbors contains p msgs ↔ q < L.procs ∧ q ≠ p ∧
      ∃ c ∈ L.copies p, contains c.ent = true ∧ ∃ c' ∈ L.copies q, c'.ent = c.ent := by
  obtain ⟨h1, h2⟩ := foldl_insert (fun m : Msg => (decide (m.dst = p) && contains m.copy.ent) = true) Msg.src msgs
  refine ⟨h2, ?_⟩
  intro q
  unfold neighbors
  rw [h1 q]
  constructor
  · rintro ⟨m, hmm, hk, rfl⟩
    obtain ⟨a1, a2, a3, a4, c', hc', he⟩ := (hm m).1 hmm
    rw [Bool.and_eq_true, decide_eq_true_eq] at hk
    obtain ⟨rfl, hk⟩ := hk
    exact ⟨a1, a3, m.copy, a4, hk, c', hc', he⟩
  · rintro ⟨hq, hne, c, hc, hk, c', hc', he⟩
    exact ⟨⟨q, p, c⟩, (hm _).2 ⟨hq, hp, hne, hc, c', hc', he⟩, by simp [hk], rfl⟩

/-- All messages of the example. -/
private def exampleAllMsgs : List Msg := exampleMsgs ++
  [⟨1, 2, ⟨13, true, [1, 2]⟩⟩, ⟨1, 2, ⟨2, true, [0]⟩⟩, ⟨0, 1, ⟨1, true, [0]⟩⟩]

example : AllInterface exampleLayout exampleAllMsgs := by
  intro m
  have hex : ∀ p e, (∃ c ∈ exampleLayout.copies p, c.ent = e) ↔ (exampleLayout.copies p).any (fun c => c.ent == e) = true := by simp
  rw [hex]
  constructor
  · intro h
    simp only [exampleAllMsgs, exampleMsgs, List.mem_append, List.mem_cons, List.not_mem_nil, or_false] at h
    rcases h with (rfl | rfl | rfl | rfl | rfl | rfl | rfl) | rfl | rfl | rfl <;> decide
  · rintro ⟨h1, h2, h3, h4, h5⟩
    obtain ⟨src, dst, c⟩ := m
    have h1 : src < 3 := h1
    have h2 : dst < 3 := h2
    have key : ∀ src < 3, ∀ dst < 3, ∀ c ∈ exampleLayout.copies dst, src ≠ dst →
      (exampleLayout.copies src).any (fun c' => c'.ent == c.ent) = true → (⟨src, dst, c⟩ : Msg) ∈ exampleAllMsgs := by decide
    exact key src h1 dst h2 c h4 h3 h5

example : (List.range 3).map (sharedDofs exampleLayout (fun m => m.copy.ent != 1) exampleAllMsgs) =
    [[false, false, false, true, true], [false, true, true, true, true, true, true, true], [true, true, true, true, true]] := by decide

example : (List.range 3).map (fun p => neighbors (fun _ => true) p exampleAllMsgs) = [[1], [0, 2], [1]] := by decide

end Verif
