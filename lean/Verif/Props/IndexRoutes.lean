import Verif.Proofs.IndexRoutesEntity
/-! Properties C89, C90 and C91: all routes from DOF indices to container indices lead to the same place. -/
namespace Verif
open IndexRoutes
open LeafOrdering (Leaf Grid Key)
open GridViewOrdering (Mesh Space GVO Local)
open PSums

/-! ### C89 local function spaces and subspaces -/

/-- **C89** for a local function space of the whole space: for every tree of orderings with updated leaves, and every local function
space (any DOFs in any leaves, `LL`), the cache holds in position `k` the container index that `mapIndex` of the ordering gives for
the DOF index number `k` of the local function space. -/
theorem C89_cache_agrees_with_mapIndex (T : Tree) (hT : T.Updated) (LL : List (List Nat × List LeafDof)) (n : Nat)
    (hleaves : LL.map (·.1) = T.paths)
    (hdofs : ∀ d ∈ dofs [] LL, T.IsDof d.t d.e d.path ∧ (T.mapIndex d.t d.e d.path).isSome)
    (hn : (dofs [] LL).length ≤ n) :
    ∃ cis, lfsCache T (groupSizes LL) (dofs [] LL) n = some cis ∧
      ∀ (k : Nat) (d : DI), (dofs [] LL)[k]? = some d → cis[k]? = T.mapIndex d.t d.e d.path := by
  refine ⟨_, lfsCache_ok T (tree_sane T hT) LL n hleaves (fun d hd => ⟨(hdofs d hd).2, (hdofs d hd).1⟩) hn, ?_⟩
  intro k d hk
  have hlt := (List.getElem?_eq_some_iff.1 hk).1
  rw [List.getElem?_append_left (by simpa using hlt), List.getElem?_map, hk]
  obtain ⟨y, hy⟩ := Option.isSome_iff_exists.1 (hdofs d (List.mem_of_getElem? hk)).2
  simp [hy]

/-- **C89** for subspaces: the same for the local function space of the subspace with the path `sub` (at any depth): the cache
holds the container indices of the *whole* ordering. -/
theorem C89_subspace_cache_agrees_with_mapIndex (T : Tree) (hT : T.Updated) (sub : List Nat) (LL : List (List Nat × List LeafDof))
    (n : Nat) (hne : LL ≠ []) (hleaves : LL.map (fun x => sub ++ x.1) = T.paths.filter (fun q => sub.isPrefixOf q))
    (hdofs : ∀ d ∈ dofs sub LL, T.IsDof d.t d.e d.path ∧ (T.mapIndex d.t d.e d.path).isSome)
    (hn : (dofs sub LL).length ≤ n) :
    ∃ f0, ∀ fuel, f0 ≤ fuel → ∃ cis, subCache fuel T sub (groupSizes LL) (dofs sub LL) n = some cis ∧
      ∀ (k : Nat) (d : DI), (dofs sub LL)[k]? = some d → cis[k]? = T.mapIndex d.t d.e d.path := by
  obtain ⟨f0, h0⟩ := subCache_ok T (tree_sane T hT) sub LL n hne hleaves (fun d hd => ⟨(hdofs d hd).2, (hdofs d hd).1⟩) hn
  refine ⟨f0, fun fuel hf => ⟨_, h0 fuel hf, ?_⟩⟩
  intro k d hk
  have hlt := (List.getElem?_eq_some_iff.1 hk).1
  rw [List.getElem?_append_left (by simpa using hlt), List.getElem?_map, hk]
  obtain ⟨y, hy⟩ := Option.isSome_iff_exists.1 (hdofs d (List.mem_of_getElem? hk)).2
  simp [hy]

/-- Two cells (type 1), three vertices (type 0). A velocity with two components ordered entity-wise and a pressure with its own ordering,
the blocks of both in one container, permuted at the top. -/
def routeGrid : Grid := ⟨2, fun t => if t = 0 then 3 else 2, []⟩
def routeLeaf : Leaf := (routeGrid.update false (some fun t => if t = 0 then 1 else 0)).getD ⟨false, false, [], [], [], [], [], 0, 0⟩
def routeMesh : Mesh := ⟨2, fun t => if t = 0 then 3 else 2⟩
def routeVelocity : Space := .node true 2 fun _ => .leaf (some fun t => if t = 0 then 1 else 0) []
def routeGvo : GVO := (GridViewOrdering.update routeMesh routeVelocity).getD ⟨false, false, [], [], [], 0, 0, .leaf none⟩
def routeTree : Tree := .lex true [0, 3, 6] 2 fun c => if c = 0 then .gridView routeGvo else .permuted [2, 0, 1] (.direct routeLeaf)

/-- The local function space on the cell with the vertices 1 and 2. -/
def routeLfs : List (List Nat × List LeafDof) := [([0, 0], [(0, 1, 0), (0, 2, 0)]), ([0, 1], [(0, 1, 0), (0, 2, 0)]), ([1], [(0, 1, 0), (0, 2, 0)])]

theorem routeTree_updated : routeTree.Updated := by
  intro c hc
  have hc : c = 0 ∨ c = 1 := by omega
  rcases hc with rfl | rfl
  · refine ⟨routeMesh, routeVelocity, ⟨by decide, fun c _ => by intro c hc; simp at hc⟩, ?_, ?_⟩
    · have : (GridViewOrdering.update routeMesh routeVelocity).isSome := by decide +kernel
      obtain ⟨g, hg⟩ := Option.isSome_iff_exists.1 this
      simp [routeGvo, hg]
    · have h : ∀ c, c < 2 → LocalBuilt ((Space.leaf (some fun t => if t = 0 then 1 else 0) []).localOrdering routeMesh) := fun c _ => rfl
      exact ⟨rfl, h⟩
  · refine ⟨routeGrid, false, some fun t => if t = 0 then 1 else 0, by intro c hc; simp [routeGrid] at hc, ?_⟩
    have : (routeGrid.update false (some fun t => if t = 0 then 1 else 0)).isSome := by decide +kernel
    obtain ⟨g, hg⟩ := Option.isSome_iff_exists.1 this
    simp [routeLeaf, hg]

/-- The hypotheses of C89 hold for this space; the cache contains the velocity components of vertex 1, vertex 2 and the
pressures (back of the index first). -/
example : routeTree.Updated ∧ routeLfs.map (·.1) = routeTree.paths ∧
    (∀ d ∈ dofs [] routeLfs, (routeTree.mapIndex d.t d.e d.path).isSome) ∧
    lfsCache routeTree (groupSizes routeLfs) (dofs [] routeLfs) 6 =
      some [[0, 1, 0], [0, 2, 0], [0, 1, 1], [0, 2, 1], [1, 0], [1, 1]] :=
  ⟨routeTree_updated, by decide +kernel, by decide +kernel, by decide +kernel⟩

theorem routeLfs_dofs : ∀ d ∈ dofs [] routeLfs, routeTree.IsDof d.t d.e d.path := by
  intro d hd
  have : d = ⟨0, 1, [0, 0, 0]⟩ ∨ d = ⟨0, 2, [0, 0, 0]⟩ ∨ d = ⟨0, 1, [0, 1, 0]⟩ ∨ d = ⟨0, 2, [0, 1, 0]⟩ ∨ d = ⟨0, 1, [1, 0]⟩ ∨ d = ⟨0, 2, [1, 0]⟩ := by
    simpa [dofs, routeLfs] using hd
  rcases this with rfl | rfl | rfl | rfl | rfl | rfl
  · exact ⟨0, [0, 0], rfl, by decide, 0, [0], rfl, by decide, 0, 1, rfl, by decide +kernel, by decide⟩
  · exact ⟨0, [0, 0], rfl, by decide, 0, [0], rfl, by decide, 0, 1, rfl, by decide +kernel, by decide⟩
  · exact ⟨0, [1, 0], rfl, by decide, 1, [0], rfl, by decide, 0, 1, rfl, by decide +kernel, by decide⟩
  · exact ⟨0, [1, 0], rfl, by decide, 1, [0], rfl, by decide, 0, 1, rfl, by decide +kernel, by decide⟩
  · exact ⟨1, [0], rfl, by decide, 0, 1, rfl, by decide +kernel, by decide⟩
  · exact ⟨1, [0], rfl, by decide, 0, 1, rfl, by decide +kernel, by decide⟩

/-- The subspace of the velocity and of its second component. -/
example : subCache 10 routeTree [0] [2, 2] (dofs [0] [([0], [(0, 1, 0), (0, 2, 0)]), ([1], [(0, 1, 0), (0, 2, 0)])]) 4 =
      some [[0, 1, 0], [0, 2, 0], [0, 1, 1], [0, 2, 1]] ∧
    subCache 10 routeTree [0, 1] [2] (dofs [0, 1] [([], [(0, 1, 0), (0, 2, 0)])]) 2 = some [[0, 1, 1], [0, 2, 1]] ∧
    [([0], [(0, 1, 0), (0, 2, 0)]), ([1], [(0, 1, 0), (0, 2, 0)])].map (fun x : List Nat × List LeafDof => [0] ++ x.1) =
      routeTree.paths.filter (fun q => [0].isPrefixOf q) := by decide +kernel

/-! ### C90 entities -/

/-- **C90** For every tree of orderings with updated leaves and every entity: the cache of the entity lists the container indices that
`mapIndex` gives for the DOFs of the entity, leaf by leaf and in the order of their numbers; the DOF indices it lists are the ones of
these DOFs, and the offsets of the leaves are the sums of the sizes of the leaves before. `LS` lists the leaves of the
tree and their sizes on the entity. -/
theorem C90_entity_cache_agrees_with_mapIndex (T : Tree) (hT : T.Updated) (t e : Nat) (LS : List (List Nat × Nat))
    (hleaves : LS.map (·.1) = T.paths) (hsizes : T.leafSizes t e = some (LS.map (·.2)))
    (hdofs : ∀ p ∈ entityDofs LS, (T.mapIndex t e p).isSome) :
    ∃ c, entityCache T t e = some c ∧ c.cis.length = (entityDofs LS).length ∧
      (∀ (k : Nat) (p : List Nat), (entityDofs LS)[k]? = some p → c.cis[k]? = T.mapIndex t e p ∧ c.dis[k]? = some ⟨t, e, p⟩) ∧
      (∀ j, j ≤ LS.length → c.offsets[j]? = some ((LS.take j).map (·.2)).sum) := by
  refine ⟨_, entityCache_ok T (tree_sane T hT) t e LS hleaves hsizes hdofs, by simp, ?_, ?_⟩
  · intro k p hk
    obtain ⟨y, hy⟩ := Option.isSome_iff_exists.1 (hdofs p (List.mem_of_getElem? hk))
    simp [List.getElem?_map, hk, hy]
  · intro j hj
    have key : ∀ (L : List Nat) (a j : Nat), j ≤ L.length → (Orderings.partialSums a L)[j]? = some (a + (L.take j).sum) := by
      intro L
      induction L with
      | nil => intro a j hj; simp at hj; subst hj; simp [Orderings.partialSums]
      | cons x L ih =>
        intro a j hj
        cases j with
        | zero => simp [Orderings.partialSums]
        | succ j =>
          simp only [Orderings.partialSums, List.getElem?_cons_succ]
          rw [ih (a + x) j (by simpa using hj)]
          simp [Nat.add_assoc]
    simp only
    rw [key _ 0 j (by simpa using hj), List.map_take]
    simp

/-- The hypotheses hold for vertex 2 of the space above. -/
example : routeTree.Updated ∧ ([([0, 0], 1), ([0, 1], 1), ([1], 1)] : List (List Nat × Nat)).map (·.1) = routeTree.paths ∧
    routeTree.leafSizes 0 2 = some [1, 1, 1] ∧
    (∀ p ∈ entityDofs [([0, 0], 1), ([0, 1], 1), ([1], 1)], (routeTree.mapIndex 0 2 p).isSome) ∧
    entityCache routeTree 0 2 = some ⟨[0, 1, 2, 3], [[0, 2, 0], [0, 2, 1], [1, 1]], [⟨0, 2, [0, 0, 0]⟩, ⟨0, 2, [0, 1, 0]⟩, ⟨0, 2, [1, 0]⟩]⟩ :=
  ⟨routeTree_updated, by decide +kernel, by decide +kernel, by decide +kernel, by decide +kernel⟩

/-! ### C91 the fast mode -/

/-- **C91 is false for the code as it is**: on a grid with triangles and quadrilaterals the index of a cell in the fast mode is not the
one of the ordering. -/
theorem C91_several_cell_types_false :
    ¬ ∀ (g : Grid) (fem : Option (Nat → Nat)) (l : Leaf) (t e : Nat), g.Valid → g.update true fem = some l → t < g.types →
        e < g.count t → (∃ s, l.entitySize t e = some s ∧ 0 < s) → fastCache [⟨t, e, [0]⟩] = l.mapIndex t e 0 := by
  intro h
  have hs : (Grid.update ⟨2, fun _ => 2, []⟩ true (some fun _ => 3)).isSome := by decide +kernel
  obtain ⟨l, hl⟩ := Option.isSome_iff_exists.1 hs
  have hm : (Grid.update ⟨2, fun _ => 2, []⟩ true (some fun _ => 3)).bind (fun l => l.mapIndex 1 0 0) = some [2, 0] := by decide +kernel
  have he : (Grid.update ⟨2, fun _ => 2, []⟩ true (some fun _ => 3)).bind (fun l => l.entitySize 1 0) = some 3 := by decide +kernel
  rw [hl] at hm he
  have := h ⟨2, fun _ => 2, []⟩ (some fun _ => 3) l 1 0 (by intro c hc; simp at hc) hl (by decide) (by decide)
    ⟨3, he, by decide⟩
  simp only [Option.bind_some] at hm
  rw [hm] at this
  simp [fastCache] at this

/-- **C91 (partial)** for a blocked leaf ordering: if no geometry type numbered before the type of the cell has DOFs (one type of cells
and DOFs only in cells), the fast mode gives the container index of the first DOF of the cell, for every grid. Missing: the case
of several cell types (false, see above). -/
theorem C91_fast_index_partial (g : Grid) (fem : Option (Nat → Nat)) (l : Leaf) (t e : Nat) (hv : g.Valid)
    (h : g.update true fem = some l) (ht : t < g.types)
    (hbefore : ∀ t', t' < t → fem.elim (∀ c ∈ g.cells, ∀ k ∈ c, k.gt ≠ t') fun s => g.count t' = 0 ∨ s t' = 0) :
    fastCache [⟨t, e, [0]⟩] = l.mapIndex t e 0 := by
  have hfx : ∀ (sizes : List Nat) (used : List Bool) (eo : List Nat), (∀ t', t' < t → g.count t' = 0 ∨ sizes.getD t' 0 = 0) →
      fastCache [⟨t, e, [0]⟩] = (LeafOrdering.mkFixed g true used sizes eo).mapIndex t e 0 := by
    intro sizes used eo hz
    simp only [Leaf.mapIndex, LeafOrdering.mkFixed, if_true]
    rw [GridViewOrdering.ps_get' _ g.types t (by omega)]
    have hp : psum (fun t => (if 0 < sizes.getD t 0 then 1 else 0) * g.count t) t = 0 := by
      rw [psum_congr (g := fun _ => 0)]
      · simp [psum]
      · intro i hi
        rcases hz i hi with h | h
        · simp [h]
        · simp only [h, Nat.lt_irrefl, if_false, Nat.zero_mul]
    rw [hp]
    simp [fastCache]
  cases fem with
  | some s =>
    simp only [Grid.update, Option.some.injEq] at h
    subst h
    apply hfx
    intro t' ht'
    rcases hbefore t' ht' with h | h
    · exact Or.inl h
    · right
      simp [List.getD, show t' < g.types by omega, h]
  | none =>
    obtain ⟨sc, h1, h2⟩ := LeafOrdering.scan_ok g hv
    have hunused : ∀ t', t' < t → g.gtUsed t' = false := by
      intro t' ht'
      have := hbefore t' ht'
      cases hu : g.gtUsed t' with
      | false => rfl
      | true =>
        simp only [Grid.gtUsed, List.any_eq_true, beq_iff_eq] at hu
        obtain ⟨c, hc, k, hk, hkt⟩ := hu
        exact absurd hkt (this c hc k hk)
    simp only [Grid.update, h1, Option.map_some, Option.some.injEq] at h
    by_cases hp : sc.possible = true
    · rw [if_pos hp] at h
      subst h
      apply hfx
      intro t' ht'
      right
      have hlt : t' < (sc.gtSizes.map fun o => o.getD 0).length := by rw [List.length_map, h2.len]; omega
      rw [List.getD, List.getElem?_eq_getElem hlt, Option.getD_some]
      rcases Nat.eq_zero_or_pos ((sc.gtSizes.map fun o => o.getD 0)[t']) with h0 | h0
      · exact h0
      · have := recorded_used h1 h2 hp (List.getElem?_eq_getElem hlt) h0
        rw [hunused t' ht'] at this
        simp at this
    · rw [if_neg hp] at h
      subst h
      simp only [Leaf.mapIndex, Bool.false_eq_true, if_false]
      rw [LeafOrdering.offsets_get g t (by omega)]
      have hp : psum (LeafOrdering.cnt g) t = 0 := by
        rw [psum_congr (g := fun _ => 0)]
        · simp [psum]
        · intro i hi
          simp [LeafOrdering.cnt, hunused i hi]
      rw [hp]
      simp [fastCache]

/-- Two cells of one type with four DOFs each (vertices are type 0, cells type 1). -/
example : ∃ l, Grid.update ⟨2, fun t => if t = 0 then 3 else 2, []⟩ true (some fun t => if t = 0 then 0 else 4) = some l ∧
    l.mapIndex 1 1 0 = some [1, 0] ∧ fastCache [⟨1, 1, [0]⟩] = some [1, 0] := by
  refine ⟨_, rfl, ?_, ?_⟩ <;> decide +kernel

theorem mapLocal_zeros {m : Mesh} : ∀ (s : Space), s.Flat → s.Valid m → ∀ (t e : Nat) (p : List Nat), s.IsDof t e p → (∀ c ∈ p, c = 0) →
    (s.localOrdering m).mapLocal t e p = some [0]
  | .leaf fem cells, _, _, t, e, p, hd, h0 => by
    obtain ⟨i, rfl, _⟩ := hd
    have : i = 0 := h0 i (by simp)
    subst this
    rfl
  | .node b n child, hf, hv, t, e, p, hd, h0 => by
    obtain ⟨c, q, rfl, hc, hq⟩ := hd
    have : c = 0 := h0 c (by simp)
    subst this
    have ih := mapLocal_zeros (child 0) (hf.2 0 hc) (hv.2 0 hc) t e q hq (fun c hc => h0 c (by simp [hc]))
    simp only [Space.localOrdering, Local.mapLocal, if_pos hc, ih, Option.bind_some, hf.1, Bool.false_eq_true, if_false,
      Nat.lt_irrefl]

/-- **C91 (partial)** for a system of spaces in an entity-wise ordering that is blocked at the top and has a fixed number of DOFs per entity
type: under the same condition the fast mode gives the container index of the first DOF of the first component. -/
theorem C91_fast_index_systems_partial (m : Mesh) (s : Space) (hv : s.Valid m) (hl : s.LeavesOk m) (hb : s.blocked = true)
    (hf : s.InnerFlat) (g : GVO) (hg : GridViewOrdering.update m s = some g) (hfix : g.fixed = true) (t e : Nat) (p : List Nat)
    (hd : GridViewOrdering.Dof m s t e p) (h0 : ∀ c ∈ p, c = 0)
    (hbefore : ∀ t' e', t' < t → e' < m.count t' → s.total t' e' = 0) :
    fastCache [⟨t, e, [0]⟩] = g.mapIndex t e p := by
  obtain ⟨ht, he, hp⟩ := hd
  have hok := GridViewOrdering.loc_ok _ (GridViewOrdering.disable_valid hv) (GridViewOrdering.disable_leaves hl)
  have hz : (s.disableBlocking.localOrdering m).mapLocal t e p = some [0] := by
    apply mapLocal_zeros _ (GridViewOrdering.disable_flat hf) (GridViewOrdering.disable_valid hv) t e p _ h0
    rw [GridViewOrdering.disable_dof]
    exact hp
  simp only [GridViewOrdering.update] at hg
  split at hg
  · simp only [GridViewOrdering.updateFixed] at hg
    obtain ⟨sizes, hs, rfl⟩ := Option.map_eq_some_iff.1 hg
    obtain ⟨rfl, hs2⟩ := mapM_some_iff (d := 0) hs
    simp only [GVO.mapIndex, hz, Option.bind_some, hb, if_true]
    rw [GridViewOrdering.ps_get' _ m.types t (by omega)]
    have hps : psum (fun t => (if 0 < (List.map (fun c => ((s.disableBlocking.localOrdering m).size c 0).getD 0) (List.range m.types)).getD t 0
        then 1 else 0) * m.count t) t = 0 := by
      rw [psum_congr (g := fun _ => 0)]
      · simp [psum]
      · intro i hi
        rcases Nat.eq_zero_or_pos (m.count i) with h | h
        · simp [h]
        · have hi' : i < m.types := by omega
          have h1 := hok.size i 0 hi' h
          rw [GridViewOrdering.disable_total, hbefore i 0 hi h] at h1
          simp [List.getD, hi', h1]
    rw [hps]
    simp [fastCache]
  · simp only [GridViewOrdering.updateVar] at hg
    obtain ⟨x, _, rfl⟩ := Option.map_eq_some_iff.1 hg
    simp at hfix

/-- Two components with four and two DOFs per cell. -/
example : ∃ g, GridViewOrdering.update ⟨2, fun t => if t = 0 then 3 else 2⟩
      (.node true 2 fun c => .leaf (some fun t => if t = 0 then 0 else if c = 0 then 4 else 2) []) = some g ∧ g.fixed = true ∧
    g.mapIndex 1 1 [0, 0] = some [1, 0] ∧ g.mapIndex 1 1 [1, 1] = some [1, 5] := by
  refine ⟨_, rfl, ?_, ?_, ?_⟩ <;> decide +kernel

end Verif
