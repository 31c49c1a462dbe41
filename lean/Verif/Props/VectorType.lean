import Verif.Proofs.VectorType
import Verif.Props.IstlAccess
import Verif.Props.Ordering
/-
Theorems about the type of coefficient vectors that is deduced from a tree of function spaces (C218).
-/
namespace Verif

open VectorType
open Orderings (OrdTree)
open Istl (Vec Ref entryV address)

variable {K : Type}

/-- **C218.** For every tree of spaces that passes the static assertions the vector type has as many nested block vectors as there are
dynamically blocked nodes on every path, plus one, exactly if there is no dynamic blocking below a node with several children. -/
theorem C218_depth (t : Tree) (D : Desc) (h : t.describe = some D) :
    (∀ p, t.IsLeaf p → D.depth = 1 + t.bcrsOn p) ↔ t.SingleNesting := depth_iff t D h

/-- **C218.** Static blocking does not occur twice on a path. The blocks of the vector are as large as the number of DOFs
per entity of all leaf spaces below the statically blocked node; blocks that are larger than one occur only if there is such a node on
every path. -/
theorem C218_block_size (t : Tree) (D : Desc) (h : t.describe = some D) (p : List Nat) (hp : t.IsLeaf p) :
    1 ≤ D.size ∧ t.fixedOn p ≤ 1 ∧ (t.fixedOn p = 1 → t.fixedBlock p = some D.size) ∧ (D.size ≠ 1 → t.fixedOn p = 1) :=
  ⟨(inv t D h).pos, ((inv t D h).fixed p hp).1, ((inv t D h).fixed p hp).2.2.1, ((inv t D h).fixed p hp).2.1⟩

/-- **C218.** The container indices of trees of lexicographic, interleaved, permuted and chunked orderings, and those of entity-wise orderings,
have the length `indexLength`, which is one, plus one for each blocked or chunked node on the path. -/
theorem C218_index_length :
    (∀ (o : OrdTree) (t : Tree), Ordered o t → ∀ path d ci, o.mapIndex path d = .ok ci → t.IsLeaf path ∧ ci.length = t.indexLength path) ∧
    (∀ (m : GridViewOrdering.Mesh) (s : GridViewOrdering.Space) (t : Tree) (g : GridViewOrdering.GVO), EntityWise s t →
      GridViewOrdering.update m s = some g → ∀ ty e p ci, g.mapIndex ty e p = some ci →
      ∃ q i, p = q ++ [i] ∧ t.IsLeaf q ∧ ci.length = t.indexLength q) :=
  ⟨ordered_length, fun m s t g hs hg ty e p ci h => entitywise_length m s t hs g hg ty e p ci h⟩

/-- **C218.** The container indices are not longer than the capacity of the class `ContainerIndex`, if chunked orderings are used with blocked
backends only. -/
theorem C218_capacity_partial (t : Tree) (hc : t.ChunksBlocked) (p : List Nat) (hp : t.IsLeaf p) : t.indexLength p ≤ t.capacity :=
  length_le_capacity t hc p hp

/-- **C218** (partial). For an accepted tree of spaces without dynamic blocking below nodes with several children: two DOFs with different
container indices have different places in the vector. Every vector of the deduced type that has the positions can be accessed with both
indices, and a value stored with the first index is read with it and does not affect the value read with the second one. (`ci` lists the outermost
entry first, `operator[]` of the vector the innermost one.) The ordering is one of `C218_index_length`, its blocks are not larger than the
static blocks of the vector, and the two indices have the same length. -/
theorem C218_container_fits_partial (t : Tree) (D : Desc) (h : t.describe = some D) (hs : t.SingleNesting) (hc : t.ChunksBlocked)
    (p p' : List Nat) (hp : t.IsLeaf p) (hp' : t.IsLeaf p') (ci ci' : List Nat)
    (hl : ci.length = t.indexLength p) (hl' : ci'.length = t.indexLength p') (hll : ci.length = ci'.length) (hne : ci ≠ ci')
    (hb : t.fixedOn p = 1 → ci.length = D.depth + 1 → ∀ x ∈ ci.getLast?, x < D.size)
    (hb' : t.fixedOn p' = 1 → ci'.length = D.depth + 1 → ∀ x ∈ ci'.getLast?, x < D.size)
    (v : Vec K D.size D.depth) (hv : (entryV D.depth v (address D.size D.depth ci.reverse)).isSome)
    (hv' : (entryV D.depth v (address D.size D.depth ci'.reverse)).isSome) :
    ∃ r r', v.at ci.reverse = some r ∧ v.at ci'.reverse = some r' ∧
      ∀ x, ((r.assign x).at ci.reverse).map Ref.value = some x ∧ ((r.assign x).at ci'.reverse).map Ref.value = some r'.value := by
  have hd := (depth_iff t D h).mpr hs
  have key : ∀ (q c : List Nat), t.IsLeaf q → c.length = t.indexLength q →
      (if D.size = 1 then c.reverse.length = D.depth ∨ c.reverse.length = D.depth + 1 else c.reverse.length = D.depth + 1) ∧
      (c.length = D.depth + 1 → t.fixedOn q = 1) := by
    intro q c hq hc'
    obtain ⟨e, e1, e2, e3⟩ := length_eq t D h hc q hq
    have hf := (inv t D h).fixed q hq
    rw [List.length_reverse, hc', e2, hd q hq]
    refine ⟨?_, fun he => by omega⟩
    by_cases h1 : D.size = 1
    · rw [if_pos h1]; omega
    · rw [if_neg h1]
      have := e3 h1 (hf.2.1 h1)
      omega
  have ha : address D.size D.depth ci.reverse ≠ address D.size D.depth ci'.reverse := by
    intro he
    apply hne
    unfold address at he
    simp only [List.reverse_reverse] at he
    by_cases h1 : D.size = 1
    · rw [if_pos h1, if_pos h1] at he
      have he := List.append_cancel_right he
      have hk := (key p ci hp hl).1
      rw [if_pos h1, List.length_reverse] at hk
      rcases hk with hk | hk
      · rwa [List.take_of_length_le (by omega), List.take_of_length_le (by omega)] at he
      · have hz : ∀ c : List Nat, c.length = D.depth + 1 → (∀ x ∈ c.getLast?, x < D.size) → c = c.take D.depth ++ [0] := by
          intro c hc1 hc2
          rcases List.eq_nil_or_concat c with rfl | ⟨l, x, rfl⟩
          · simp at hc1
          · rw [List.concat_eq_append] at hc1 hc2 ⊢
            have : x < D.size := hc2 x (by simp)
            have hx : x = 0 := by omega
            subst hx
            have : l.length = D.depth := by simpa using hc1
            rw [List.take_append_of_le_length (by omega), List.take_of_length_le (by omega)]
        rw [hz ci hk (hb ((key p ci hp hl).2 hk) hk), hz ci' (by omega) (hb' ((key p' ci' hp' hl').2 (by omega)) (by omega)), he]
    · rw [if_neg h1, if_neg h1] at he
      exact he
  have A := C184_vector v ci.reverse (key p ci hp hl).1
  have B := C184_vector v ci'.reverse (key p' ci' hp' hl').1
  obtain ⟨y, hy⟩ := Option.isSome_iff_exists.mp hv
  obtain ⟨y', hy'⟩ := Option.isSome_iff_exists.mp hv'
  rw [hy] at A
  rw [hy'] at B
  obtain ⟨r, hr, _⟩ := Option.map_eq_some_iff.mp A.1
  obtain ⟨r', hr', e'⟩ := Option.map_eq_some_iff.mp B.1
  refine ⟨r, r', hr, hr', fun x => ⟨?_, ?_⟩⟩
  · rw [(C184_vector (r.assign x) ci.reverse (key p ci hp hl).1).1, A.2 r hr x, if_pos rfl]
  · rw [(C184_vector (r.assign x) ci'.reverse (key p' ci' hp' hl').1).1, A.2 r hr x, if_neg (Ne.symm ha), hy', e']

/-! ### Examples -/

/-- A leaf space without blocking whose finite element map has one DOF per entity. -/
def vtLeaf : Tree := .leaf ⟨.none, 0⟩ false 1

/-- A product of spaces. -/
def vtNode (b : Blocking) (n : Nat) (child : Nat → Tree) : Tree := .node ⟨b, 0⟩ false n child

/-- Velocity (the two components of an entity in a block) and a space with two DOFs per entity, as the two parts of a vector. -/
def vtStokes : Tree := vtNode .bcrs 2 fun i => if i = 0 then vtNode .fixed 2 fun _ => vtLeaf else .leaf ⟨.fixed, 2⟩ false 2

example : vtStokes.describe = some ⟨true, false, true, 2, 4, 2, 2⟩ ∧ vtStokes.SingleNesting ∧ vtStokes.ChunksBlocked ∧ vtStokes.IsLeaf [0, 1] ∧
    vtStokes.IsLeaf [1] ∧ vtStokes.indexLength [0, 1] = 3 ∧ vtStokes.indexLength [1] = 3 ∧ vtStokes.fixedOn [1] = 1 ∧ vtStokes.capacity = 3 := by
  refine ⟨by decide +kernel, ⟨fun i hi => ?_, fun _ i hi p hp => ?_⟩, ⟨by simp, fun i hi => ?_⟩, ⟨by omega, by omega, rfl⟩, ⟨by omega, rfl⟩,
    by decide, by decide, by decide, by decide +kernel⟩
  · match i with
    | 0 => exact ⟨fun _ _ => trivial, fun _ j _ p hp => by simp [vtLeaf, Tree.bcrsOn]⟩
    | i + 1 => exact trivial
  · match i with
    | 0 =>
      match p, hp with
      | j :: q, hq => rfl
    | i + 1 => rfl
  · match i with
    | 0 => exact ⟨by simp, fun _ _ => by simp [vtLeaf, Tree.ChunksBlocked]⟩
    | i + 1 => simp [Tree.ChunksBlocked]

/-- C218 applied to this tree: the two components of the velocity in a block, index (0,1,0) and (0,1,1). -/
example (v : Vec ℚ 2 2) (h0 : (entryV 2 v [0, 1, 0]).isSome) (h1 : (entryV 2 v [0, 1, 1]).isSome)
    (hs : vtStokes.SingleNesting) (hc : vtStokes.ChunksBlocked) :
    ∃ r r', v.at [0, 1, 0] = some r ∧ v.at [1, 1, 0] = some r' ∧
      ∀ x, ((r.assign x).at [0, 1, 0]).map Ref.value = some x ∧ ((r.assign x).at [1, 1, 0]).map Ref.value = some r'.value :=
  C218_container_fits_partial vtStokes ⟨true, false, true, 2, 4, 2, 2⟩ (by decide +kernel) hs hc [0, 0] [0, 1] ⟨by omega, by omega, rfl⟩
    ⟨by omega, by omega, rfl⟩ [0, 1, 0] [0, 1, 1] rfl rfl rfl (by simp) (by simp) (by simp) v h0 h1

/-! ### Where it is false -/

/-- Two systems of two spaces, all of them kept in separate vectors. -/
def vtNested (n : Nat) : Tree := vtNode .bcrs n fun _ => vtNode .bcrs 2 fun _ => vtLeaf

/-- The ordering of `vtNested 2`, if the leaf spaces have two DOFs each. -/
def vtNestedOrdering : OrdTree := .lex true 2 fun _ => .lex true 2 fun _ => .leaf 2 [[0], [1]]

theorem vtNestedOrdering_ordered : Ordered vtNestedOrdering (vtNested 2) := by
  refine ⟨rfl, rfl, fun i _ => ⟨rfl, rfl, fun j _ => ?_⟩⟩
  intro ci hci
  simp at hci
  rcases hci with rfl | rfl <;> rfl

/-- **C218** is false for nested dynamic blocking: a vector of two vectors of two vectors compiles, but the deduced type has two levels only. The
indices of the two DOFs of the first space have three entries, the access ignores the innermost one, and both DOFs refer to the same number
in every vector. With a third system the program does not compile any more. -/
theorem C218_nested_false :
    (vtNested 2).describe = some ⟨true, false, true, 1, 4, 2, 1⟩ ∧
    vtNestedOrdering.mapIndex [0, 0] 0 = .ok [0, 0, 0] ∧ vtNestedOrdering.mapIndex [0, 0] 1 = .ok [0, 0, 1] ∧
    (∀ v : Vec ℚ 1 2, (v.at [0, 0, 0]).map Ref.value = (v.at [1, 0, 0]).map Ref.value ∧
      ∀ r, v.at [0, 0, 0] = some r → ∀ x, ((r.assign x).at [1, 0, 0]).map Ref.value = some x) ∧
    (vtNested 3).describe = none := by
  refine ⟨by decide +kernel, by decide +kernel, by decide +kernel, fun v => ?_, by decide +kernel⟩
  have A := C184_vector v [0, 0, 0] (by simp)
  have B := C184_vector v [1, 0, 0] (by simp)
  refine ⟨by rw [A.1, B.1]; rfl, fun r hr x => ?_⟩
  rw [(C184_vector (r.assign x) [1, 0, 0] (by simp)).1, A.2 r hr x, if_pos (show address 1 2 [1, 0, 0] = address 1 2 [0, 0, 0] from rfl)]

/-- **C218** is false for chunked orderings of spaces whose backend is not blocked: the container indices are longer than the capacity. -/
theorem C218_chunked_false :
    ¬ ∀ (o : OrdTree) (t : Tree), o.Good → Ordered o t → (∃ D, t.describe = some D) →
      ∀ path d ci, o.IsDof path d → o.mapIndex path d = .ok ci → ci.length ≤ t.capacity := by
  intro h
  have := h (.chunked 2 (.leaf 4 [[0], [1], [2], [3]])) (.leaf ⟨.none, 0⟩ true 1)
    ⟨by omega, by decide, by decide, by
      intro ci hci
      simp at hci
      rcases hci with rfl | rfl | rfl | rfl
      · exact ⟨0, [], rfl, by omega⟩
      · exact ⟨1, [], rfl, by omega⟩
      · exact ⟨2, [], rfl, by omega⟩
      · exact ⟨3, [], rfl, by omega⟩⟩
    (by intro ci hci; simp at hci; rcases hci with rfl | rfl | rfl | rfl <;> rfl) ⟨_, rfl⟩ [] 3 [1, 1] (by simp [OrdTree.IsDof])
    (by decide +kernel)
  revert this
  decide +kernel

/-- **C218** is false for lexicographic orderings with static blocking: with two spaces of three DOFs each, the third DOF of the first space has
the index (0,2), but the blocks of the vector have two entries. -/
theorem C218_lexicographic_fixed_false :
    (vtNode .fixed 2 fun _ => vtLeaf).describe = some ⟨true, false, true, 2, 2, 1, 2⟩ ∧
    Ordered (.lex true 2 fun _ => .leaf 3 [[0], [1], [2]]) (vtNode .fixed 2 fun _ => vtLeaf) ∧
    (OrdTree.lex true 2 fun _ => .leaf 3 [[0], [1], [2]]).mapIndex [0] 2 = .ok [0, 2] ∧
    ∀ v : Vec ℚ 2 1, v.at [2, 0] = none := by
  refine ⟨by decide +kernel, ⟨rfl, rfl, fun i _ ci hci => ?_⟩, by decide +kernel, fun v => ?_⟩
  · simp at hci
    rcases hci with rfl | rfl | rfl <;> rfl
  · have A := (C184_vector v [2, 0] (by simp)).1
    have B : entryV 1 v (address 2 1 [2, 0]) = none := by
      change (v.blocks[0]?).bind (fun c => entryV 0 c [2]) = none
      rcases v.blocks[0]? with _ | c
      · rfl
      · simp [entryV]
    rw [B] at A
    rcases hv : v.at [2, 0] with _ | r
    · rfl
    · rw [hv] at A; cases A

/-- **C218** is false for statically blocked leaf spaces in an entity-wise ordering: its container indices have one entry, but the vector
has blocks, so that no DOF can be accessed. -/
theorem C218_entitywise_leaf_false :
    (vtNode .none 2 fun _ => .leaf ⟨.fixed, 0⟩ false 2).describe = some ⟨true, false, true, 2, 4, 1, 2⟩ ∧
    (∃ g, GridViewOrdering.update ⟨1, fun _ => 3⟩ (.node false 2 fun _ => .leaf (some fun _ => 2) []) = some g ∧
      g.mapIndex 0 0 [1, 1] = some [3]) ∧
    ∀ (v : Vec ℚ 2 1) (i : Nat), v.at [i] = none := by
  refine ⟨by decide +kernel, ?_, fun v i => C184_vector_length v [i] (by simp)⟩
  obtain ⟨g, hg⟩ : ∃ g, GridViewOrdering.update ⟨1, fun _ => 3⟩ (.node false 2 fun _ => .leaf (some fun _ => 2) []) = some g :=
    ⟨_, rfl⟩
  have : (GridViewOrdering.update ⟨1, fun _ => 3⟩ (.node false 2 fun _ => .leaf (some fun _ => 2) [])).bind (fun g => g.mapIndex 0 0 [1, 1])
      = some [3] := by decide +kernel
  rw [hg] at this
  exact ⟨g, hg, this⟩

end Verif
