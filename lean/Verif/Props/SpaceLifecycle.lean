import Verif.Proofs.SpaceLifecycle

/-!
# C190, C191: sizes reported by grid function spaces, and their hierarchy
-/

set_option linter.unusedSectionVars false

namespace Verif

open Verif.SpaceLifecycle

section

variable {G : Type} (dofs : G → Nat → Nat)

/-- **C190** (partial: copies are made only of spaces which have not been used,
and the update is a forced one, see `C190_copy_false` and
`C190_mixed_grids_false`).  Whatever happened before - changes of the grid,
construction, composition and updates of other spaces, shared entity sets,
exceptions - after a successful `update(true)` of a space, every space `t` of
its tree reports the dimension of the root on the present grid as global size,
the sum of the largest local sizes of all leaves as maximal local size, and as
size its own dimension on the present grid if it is not below an entity blocked
node; below such a node the size is refused. -/
theorem C190_forced_update_partial (g : G) (wanted : Nat → Finset Nat) (h : List (Event G))
    (hf : CopiesFresh dofs (State.init g wanted) h) (i : Nat) (s : Space) (st' : State G)
    (hs : (run dofs (State.init g wanted) h).spaces[i]? = some s)
    (hu : update dofs (run dofs (State.init g wanted) h) i true = (st', .ok))
    (t : Space) (b : Bool) (ht : (t, b) ∈ subspaces false s) :
    globalSize st' t.id = .value (dimension dofs (run dofs (State.init g wanted) h).grid s) ∧
    reportedMaxLocalSize st' t.id = .value ((s.leaves.map Leaf.maxLocal).sum) ∧
    ((∀ t' b', (t', b') ∈ subspaces false s → t'.id = t.id → b' = false) →
      size st' t.id = .value (dimension dofs (run dofs (State.init g wanted) h).grid t)) ∧
    ((∀ t' b', (t', b') ∈ subspaces false s → t'.id = t.id → b' = true) →
      size st' t.id = .hierarchyError) :=
  update_true_ok dofs (run_invariants dofs g wanted h).1 ((run_invariants dofs g wanted h).2 hf)
    hs hu ht

/-- **C190** (no other effects).  What an existing space reports is changed by
nothing but a successful `update()` or (first) `ordering()` of a space whose
tree contains it; in particular not by a change of the grid, and not by updates
of other trees or operations which throw. -/
theorem C190_unchanged (g : G) (wanted : Nat → Finset Nat) (h : List (Event G))
    (hf : CopiesFresh dofs (State.init g wanted) h) (e : Event G) (j : Nat)
    (hj : j < (run dofs (State.init g wanted) h).spaces.length)
    (hne : reports (run dofs (State.init g wanted) (h ++ [e])) j
      ≠ reports (run dofs (State.init g wanted) h) j) :
    ∃ i s, (e = .ordering i ∨ ∃ force, e = .update i force) ∧
      (run dofs (State.init g wanted) h).spaces[i]? = some s ∧ Contains s j ∧
      (step dofs (run dofs (State.init g wanted) h) e).2 = .ok := by
  rw [run_append] at hne
  rcases reports_step dofs ((run_invariants dofs g wanted h).2 hf) e hj with h' | h'
  · exact absurd h' hne
  · exact h'

end

/-- Degrees of freedom for examples: on grid `g` element map `fem` has
`g * (fem + 1)` of them. -/
def lifecycleDofs (g fem : Nat) : Nat := g * (fem + 1)

/-- A blocked system of two spaces and a further space in one tree; the grid
changes afterwards. -/
def lifecycleHistory : List (Event Nat) :=
  [.newLeaf 0 0 {0} 1, .newLeaf 0 1 {2} 3, .newNode true [0, 1], .newLeaf 1 2 {1} 4,
    .newNode false [2, 3], .update 4 false, .changeGrid 7]

/-- The hypotheses of the theorems are met, and the sizes are as described. -/
example :
    CopiesFresh lifecycleDofs (State.init 5 fun _ => ∅) lifecycleHistory ∧
    (update lifecycleDofs (run lifecycleDofs (State.init 5 fun _ => ∅) lifecycleHistory) 4 true).2 = .ok ∧
    [0, 1, 2, 3, 4].map (size (run lifecycleDofs (State.init 5 fun _ => ∅) lifecycleHistory)) =
      [.hierarchyError, .hierarchyError, .value 15, .value 15, .value 30] ∧
    [0, 1, 2, 3, 4].map (size (run lifecycleDofs (State.init 5 fun _ => ∅)
      (lifecycleHistory ++ [.update 4 true]))) =
      [.hierarchyError, .hierarchyError, .value 21, .value 21, .value 42] := by
  refine ⟨?_, by decide +kernel, by decide +kernel, by decide +kernel⟩
  intro pre i post h
  have : Event.copy i ∈ lifecycleHistory := by rw [h]; simp
  simp [lifecycleHistory] at this

/-- **C190** (false for copies).  A copy of a space which has been updated shares
its ordering, which writes to the original: after the grid changed, `update(true)`
of the copy succeeds, but the copy still reports the size on the old grid, and
the original the one on the new grid. -/
theorem C190_copy_false :
    let st := run lifecycleDofs (State.init 5 fun _ => ∅)
      [.newLeaf 0 0 {0} 1, .update 0 false, .copy 0, .changeGrid 7]
    (update lifecycleDofs st 1 true).2 = .ok ∧
    size (update lifecycleDofs st 1 true).1 1 = .value (lifecycleDofs 5 0) ∧
    size (update lifecycleDofs st 1 true).1 0 = .value (lifecycleDofs 7 0) ∧
    lifecycleDofs 5 0 ≠ lifecycleDofs 7 0 := by
  decide +kernel

/-- **C190** (false without a forced update).  Spaces constructed after a change
of the grid, with an entity set which was used before, and used without
`update(true)`: one child has the size on the old grid, the other one the size
on the new grid, since only a new codimension makes the entity set look at the
grid.  The size of the whole space is the dimension on neither grid. -/
theorem C190_mixed_grids_false :
    let st := run lifecycleDofs (State.init 3 fun _ => ∅)
      [.newLeaf 0 0 {0} 1, .ordering 0, .changeGrid 7,
        .newLeaf 0 0 {0} 1, .newLeaf 0 1 {2} 3, .newNode false [1, 2], .ordering 3]
    size st 1 = .value (lifecycleDofs 3 0) ∧
    size st 2 = .value (lifecycleDofs 7 1) ∧
    size st 3 = .value 17 ∧
    (st.spaces[3]?.map fun s => (dimension lifecycleDofs 3 s, dimension lifecycleDofs 7 s))
      = some (9, 21) := by
  decide +kernel

/-! ## C191 -/

section

variable {G : Type} (dofs : G → Nat → Nat)

/-- **C191** (use of a space).  In every reachable state `update()` and
`ordering()` of a space succeed exactly if it is not part of a larger space and
the leaves below entity blocked nodes share their entity set; otherwise they
throw a `GridFunctionSpaceHierarchyError`, and what the spaces report stays as
it was. -/
theorem C191_use (g : G) (wanted : Nat → Finset Nat) (h : List (Event G)) (i : Nat) (s : Space)
    (hs : (run dofs (State.init g wanted) h).spaces[i]? = some s) (force : Bool) :
    let st := run dofs (State.init g wanted) h
    ((st.data i).isRoot = true ∧ OneEntitySet s →
      (update dofs st i force).2 = .ok ∧ (ordering dofs st i).2 = .ok) ∧
    (¬((st.data i).isRoot = true ∧ OneEntitySet s) →
      (update dofs st i force).2 = .hierarchyError ∧ (ordering dofs st i).2 = .hierarchyError ∧
      ∀ j, reports (update dofs st i force).1 j = reports st j ∧
        reports (ordering dofs st i).1 j = reports st j) := by
  intro st
  have hp := run_possible dofs g wanted h
  have hu := update_outcome dofs hp hs force
  have ho := ordering_outcome dofs hp hs
  constructor
  · intro hh
    rw [← orderingPossible_iff] at hh
    rw [hu, ho, if_pos hh]; exact ⟨rfl, rfl⟩
  · intro hh
    rw [← orderingPossible_iff] at hh
    rw [if_neg hh] at hu ho
    refine ⟨hu, ho, fun j => ⟨reports_update_error dofs ?_ j, reports_ordering_error dofs ?_ j⟩⟩
    · rw [hu]; simp
    · rw [ho]; simp

/-- **C191** (composition).  A new space can be made of existing spaces exactly if
none of these is an initialised root; then it is a root and not initialised, its
children are not roots any more, and all other spaces are as before. -/
theorem C191_compose (st : State G) (blocked : Bool) (children : List Nat) (hne : children ≠ [])
    (hex : ∀ c ∈ children, c < st.spaces.length) :
    ((newNode st blocked children).2 = .ok ↔
      ∀ c ∈ children, ¬((st.data c).initialized = true ∧ (st.data c).isRoot = true)) ∧
    ((newNode st blocked children).2 = .ok ∨ (newNode st blocked children).2 = .hierarchyError) ∧
    ((newNode st blocked children).2 = .ok →
      (∃ cs, lookup st.spaces children = some cs ∧ (newNode st blocked children).1.spaces
        = st.spaces ++ [.node st.spaces.length blocked cs]) ∧
      ((newNode st blocked children).1.data st.spaces.length).isRoot = true ∧
      ((newNode st blocked children).1.data st.spaces.length).initialized = false ∧
      (∀ c ∈ children, ((newNode st blocked children).1.data c).isRoot = false) ∧
      ∀ j < st.spaces.length, j ∉ children →
        (newNode st blocked children).1.data j = st.data j) := by
  obtain ⟨c, cs', rfl⟩ := List.exists_cons_of_ne_nil hne
  obtain ⟨ss, hl⟩ := lookup_some hex
  obtain ⟨h1, h2⟩ := resetRoot_outcome (c :: cs') st.data
  have h3 := resetRoot_children (c :: cs') st.data
  unfold newNode
  rw [hl]
  dsimp only
  cases hr : resetRoot st.data (c :: cs') with
  | mk data r =>
    rw [hr] at h1 h2 h3
    cases r with
    | ok =>
      refine ⟨by simpa using h1, Or.inl rfl, fun _ => ⟨⟨ss, rfl, rfl⟩, ?_, ?_, ?_, ?_⟩⟩
      · dsimp only; rw [assign_same]; rfl
      · dsimp only; rw [assign_same]; rfl
      · intro k hk
        have hlt := hex k hk
        dsimp only
        rw [assign_ne _ _ (by omega)]
        exact (h3 k).2.1 rfl hk
      · intro j hj hjc
        dsimp only
        rw [assign_ne _ _ (by omega)]
        exact (h3 j).2.2 hjc
    | hierarchyError =>
      refine ⟨by simpa using h1, Or.inr rfl, fun h => by simp at h⟩
    | unknown => simp at h2

/-- **C191** (for ever).  A space which is an initialised root stays one, whatever
happens; a space which is part of a larger space stays that. -/
theorem C191_for_ever (st : State G) (h : List (Event G)) (j : Nat) (hj : j < st.spaces.length) :
    ((st.data j).initialized = true → (st.data j).isRoot = true →
      ((run dofs st h).data j).initialized = true ∧ ((run dofs st h).data j).isRoot = true) ∧
    ((st.data j).isRoot = false → ((run dofs st h).data j).isRoot = false) := by
  obtain ⟨h1, h2⟩ := flags_run dofs h st hj
  refine ⟨fun hi hr => ?_, h2⟩
  obtain ⟨a, b⟩ := h1 hi
  exact ⟨a, b.trans hr⟩

/-- **C191** (initialisation).  After a successful `update()` all spaces of the
tree are initialised: from then on, by `C191_for_ever`, the root cannot be
composed any more. -/
theorem C191_initialized (g : G) (wanted : Nat → Finset Nat) (h : List (Event G))
    (hf : CopiesFresh dofs (State.init g wanted) h) (i : Nat) (s : Space) (force : Bool)
    (st' : State G) (hs : (run dofs (State.init g wanted) h).spaces[i]? = some s)
    (hu : update dofs (run dofs (State.init g wanted) h) i force = (st', .ok))
    (j : Nat) (hj : Contains s j) :
    (st'.data j).initialized = true :=
  update_initializes dofs ((run_invariants dofs g wanted h).2 hf) hs hu hj

end

/-- The cases of the theorems occur: a root can be updated, its children
cannot, and after the update it cannot become a child. -/
example :
    let st := run lifecycleDofs (State.init 5 fun _ => ∅) lifecycleHistory
    (step lifecycleDofs st (.update 4 false)).2 = .ok ∧
    (step lifecycleDofs st (.update 2 false)).2 = .hierarchyError ∧
    (step lifecycleDofs st (.ordering 0)).2 = .hierarchyError ∧
    (step lifecycleDofs st (.newNode false [4])).2 = .hierarchyError ∧
    (step lifecycleDofs st (.newNode false [2, 2])).2 = .ok ∧
    (step lifecycleDofs (run lifecycleDofs (State.init 5 fun _ => ∅)
      [.newLeaf 0 0 {0} 1, .newLeaf 1 0 {0} 1, .newNode true [0, 1]]) (.update 2 true)).2
      = .hierarchyError := by
  decide +kernel

/-- **C191** (false for rejected constructions).  A constructor which throws because
its second child is an initialised root has already taken the first child away:
this space belongs to no larger space, but `update()` of it throws. -/
theorem C191_rejected_false :
    let st := run lifecycleDofs (State.init 5 fun _ => ∅)
      [.newLeaf 0 0 {0} 1, .newLeaf 0 1 {2} 3, .update 1 false]
    (step lifecycleDofs st (.update 0 false)).2 = .ok ∧
    (step lifecycleDofs st (.newNode false [0, 1])).2 = .hierarchyError ∧
    (step lifecycleDofs st (.newNode false [0, 1])).1.spaces.length = st.spaces.length ∧
    (step lifecycleDofs (step lifecycleDofs st (.newNode false [0, 1])).1 (.update 0 false)).2
      = .hierarchyError := by
  decide +kernel

end Verif
