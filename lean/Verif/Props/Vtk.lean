import Verif.Proofs.Vtk
import Mathlib.Algebra.Ring.Int.Defs

/-!
# Properties of the output to VTK files (C187-C189)
-/

set_option linter.unusedSectionVars false

namespace Verif

open Vtk

section Values

variable {Cell Pt K : Type} [Ring K]

/-- C187.  Whatever the order in which the writer evaluates the functions of a
call, and however often grid, space and vector change in between, each value
handed to the writer is the value the finite element function has at that time,
provided that the first evaluation after a change takes place on another cell
than the last one before it.  Missing for the full property: that proviso. -/
theorem C187_values_partial (noCell : Nat) (w : World Cell Pt K) (h : List (Event Cell Pt K))
    (hw : Numbered noCell w) (hc : ∀ w', .change w' ∈ h → Numbered noCell w')
    (hm : MovesOn w h) :
    (run (w, Data.init noCell) h).2 = expected w h :=
  (run_correct noCell w h hw hc hm).1

/-- C187.  Without changes there is no proviso: a file written once is right. -/
theorem C187_values_unchanged (noCell : Nat) (w : World Cell Pt K) (h : List (Event Cell Pt K))
    (hw : Numbered noCell w) (hn : ∀ e ∈ h, ¬ e.IsChange) :
    (run (w, Data.init noCell) h).2 = expected w h := by
  refine C187_values_partial noCell w h hw (fun w' hm => absurd trivial (hn _ hm)) ?_
  intro pre f₁ r₁ k₁ c₁ p₁ mid f₂ r₂ k₂ c₂ p₂ post hh hmid hall
  cases mid with
  | nil => exact absurd rfl hmid
  | cons e mid =>
    exact absurd (hall e (by simp)) (hn e (by rw [hh]; simp))

/-- C187.  By default component `c` of the output is component `c` of the
function, for each component of its range. -/
theorem C187_default_components (f : Function) (c : Nat) :
    ncomps (defaultRemap f) = numComponents f ∧
    (defaultRemap f)[c]? = if c < numComponents f then some c else none := by
  rw [← dimRange_eq f]
  have h : ∀ c : Nat, (defaultRemap f)[c]? = if c < f.dimRange then some c else none := by
    intro c
    have := rangeLoop_get (f.dimRange - 0) 0 f.dimRange 1 c (by omega) (by omega)
    simpa [defaultRemap, rangeVector] using this
  refine ⟨?_, h c⟩
  unfold ncomps
  refine Nat.le_antisymm ?_ ?_
  · by_contra hlt
    have := h f.dimRange
    rw [if_neg (Nat.lt_irrefl _), List.getElem?_eq_none_iff] at this
    omega
  · by_contra hlt
    have := h (defaultRemap f).length
    rw [if_pos (by omega), List.getElem?_eq_none (Nat.le_refl _)] at this
    simp at this

/-- C187.  A range of numbers: `begin`, `begin + increment` and so on, up to but
not including the end. -/
theorem C187_range (b e inc j : Nat) (hi : 0 < inc) :
    (rangeVector b e inc)[j]? = if b + j * inc < e then some (b + j * inc) else none :=
  rangeLoop_get (e - b) b e inc j hi (Nat.le_refl _)

example : rangeVector 23 42 7 = [23, 30, 37] := by decide

/-- A grid with two cells, one unknown per cell and one shared unknown. -/
def vtWorld (x : Nat → Int) : World Bool Unit Int where
  index := fun c => if c then 1 else 0
  x := x
  dofs := fun c l => if l = 0 then (if c then [1, 2] else [0, 1]) else [3]
  basis := fun _ _ _ => [fun _ => 1, fun _ => 2]

theorem vtWorld_numbered (x : Nat → Int) : Numbered 100 (vtWorld x) := by
  refine ⟨?_, ?_⟩
  · intro a b h
    cases a <;> cases b <;> simp [vtWorld] at h ⊢
  · intro c
    cases c <;> simp [vtWorld]

/-- A history: the writer goes over the two cells, the vector changes, and the
writer starts again at the first cell. -/
def vtHistory : List (Event Bool Unit Int) :=
  [.eval (.leaf 0 1) [0] 0 false (), .eval (.leaf 0 1) [0] 0 true (),
    .change (vtWorld fun i => 10 * i),
    .eval (.leaf 0 1) [0] 0 false (), .eval (.vector [0, 1]) [1, 0] 1 true ()]

theorem vtHistory_movesOn : MovesOn (vtWorld fun i => i) vtHistory := by
  intro pre f₁ r₁ k₁ c₁ p₁ mid f₂ r₂ k₂ c₂ p₂ post hh hmid hall
  unfold vtHistory at hh
  rcases pre with _ | ⟨e0, _ | ⟨e1, _ | ⟨e2, _ | ⟨e3, _ | ⟨e4, _ | ⟨e5, pre⟩⟩⟩⟩⟩⟩ <;>
    rcases mid with _ | ⟨m0, _ | ⟨m1, mid⟩⟩ <;> simp at hh hmid hall
  · obtain ⟨_, rfl, _⟩ := hh
    exact absurd hall.1 (fun h => h)
  · obtain ⟨rfl, ⟨_, _, _, rfl⟩, rfl, ⟨_, _, _, rfl⟩, _⟩ := hh
    simp [worldAfter, vtWorld]
  · obtain ⟨_, _, _, rfl, _⟩ := hh
    exact absurd hall.2.1 (fun h => h)

example : (run (vtWorld fun i => i, Data.init 100) vtHistory).2 = [some 2, some 5, some 20, some 50]
    := by decide +kernel

example : expected (vtWorld fun i => i) vtHistory = [some 2, some 5, some 20, some 50] := by
  rw [← C187_values_partial 100 _ _ (vtWorld_numbered _)
    (by intro w hw; simp [vtHistory] at hw; subst hw; exact vtWorld_numbered _) vtHistory_movesOn]
  decide +kernel

/-- A grid with one cell. -/
def vtOne (x : Nat → Int) : World Unit Unit Int where
  index := fun _ => 0
  x := x
  dofs := fun _ _ => [0]
  basis := fun _ _ _ => [fun _ => 1]

/-- C187 is false without the proviso.  On a grid with one cell (or on a process
with one cell) the second file shows the values of the first one, although the
vector has changed in between. -/
theorem C187_one_cell_false :
    Numbered 100 (vtOne fun _ => 1) ∧ Numbered 100 (vtOne fun _ => 2) ∧
    (run (vtOne fun _ => 1, Data.init 100)
      [.eval (.leaf 0 1) [0] 0 () (), .change (vtOne fun _ => 2), .eval (.leaf 0 1) [0] 0 () ()]).2
      = [some 1, some 1] ∧
    expected (vtOne fun _ => 1)
      [.eval (.leaf 0 1) [0] 0 () (), .change (vtOne fun _ => 2), .eval (.leaf 0 1) [0] 0 () ()]
      = [some 1, some 2] := by
  have hn : ∀ x, Numbered 100 (vtOne x) := fun x =>
    ⟨fun _ _ _ => rfl, fun _ => by simp [vtOne]⟩
  refine ⟨hn _, hn _, by decide +kernel, ?_⟩
  simp [expected, value, leafValue, vtOne, numComponents]

end Values

/-! ## Registered functions -/

/-- C188.  Adding a solution to a writer registers one function for each leaf
space and each vector space which is not part of a vector space, which lives on
the grid view of the writer and which the predicate accepts, in the order of
their paths, with the kind of data of the space and the name made by the name
generator; what was registered before stays.  If the name generator has no name
for a component, the call ends with an exception, and what comes before the
first such component has been registered. -/
theorem C188_registered (gen : Text → Path → Option Text) (predicate : Path → Bool) (tree : Space)
    (out : List Entry) :
    ∃ new : List Entry,
      (addSolution gen predicate tree out).1 = out ++ new ∧
      new.Pairwise (fun a b => pathLt a.path b.path) ∧
      (∀ e, e ∈ new ↔ ∃ name, IsComponent predicate tree e.path name e.kind ∧
        gen name e.path = some e.name ∧
        ∀ p n k, IsComponent predicate tree p n k → gen n p = none → pathLt e.path p) ∧
      ((addSolution gen predicate tree out).2 = true ↔
        ∀ p n k, IsComponent predicate tree p n k → gen n p ≠ none) := by
  obtain ⟨h1, h2⟩ := comps_ok predicate tree []
  have hb : below predicate [] = predicate := rfl
  have hmem : ∀ n k p, (n, k, p) ∈ comps predicate tree [] ↔ IsComponent predicate tree p n k := by
    intro n k p
    rw [h1, hb]
    constructor
    · rintro ⟨q, rfl, hq⟩; exact hq
    · intro hp; exact ⟨p, rfl, hp⟩
  obtain ⟨new, a1, a2, a3, a4⟩ := addAll_result gen _ h2 out
  refine ⟨new, ?_, a2, ?_, ?_⟩
  · unfold addSolution; rw [visit_eq]; exact a1
  · intro e
    rw [a3 e]
    constructor
    · rintro ⟨name, hm, hn, hl⟩
      exact ⟨name, (hmem _ _ _).1 hm, hn, fun p n k hp hg => hl (n, k, p) ((hmem _ _ _).2 hp) hg⟩
    · rintro ⟨name, hm, hn, hl⟩
      exact ⟨name, (hmem _ _ _).2 hm, hn, fun c hc hg => hl c.2.2 c.1 c.2.1 ((hmem _ _ _).1 hc) hg⟩
  · unfold addSolution
    rw [visit_eq, a4]
    constructor
    · intro h p n k hp; exact h (n, k, p) ((hmem _ _ _).2 hp)
    · intro h c hc; exact h c.2.2 c.1 c.2.1 ((hmem _ _ _).1 hc)

/-- A Taylor-Hood space with a vector space for the velocity, a pressure, and a
power of two unnamed spaces. -/
def vtTree : Space :=
  .inner true
    [.vector ['v'] .vertexData true [.leaf [] .vertexData true, .leaf [] .vertexData true],
      .leaf ['p'] .cellData true,
      .inner true [.leaf [] .vertexData true, .leaf [] .vertexData true]]

example : addSolution (NameGenerator.apply ⟨['s'], [], ['_']⟩) (fun _ => true) vtTree []
    = ([⟨.vertexData, ['s', 'v'], [0]⟩, ⟨.cellData, ['s', 'p'], [1]⟩,
        ⟨.vertexData, ['s', '_', '2', '_', '0'], [2, 0]⟩,
        ⟨.vertexData, ['s', '_', '2', '_', '1'], [2, 1]⟩], true) := by decide +kernel

example : addSolution (NameGenerator.apply NameGenerator.default) (fun _ => true) vtTree []
    = ([⟨.vertexData, ['v'], [0]⟩, ⟨.cellData, ['p'], [1]⟩], false) := by decide +kernel

example : addSolution (NameGenerator.apply NameGenerator.default) (fun p => p == [1]) vtTree []
    = ([⟨.cellData, ['p'], [1]⟩], true) := by decide +kernel

/-! ## Names -/

/-- C189.  The default name generator refuses a component if and only if it has
no name and there is neither a prefix nor a suffix. -/
theorem C189_refused (g : NameGenerator) (name : Text) (p : Path) :
    g.apply name p = none ↔ name = [] ∧ g.prefixText = [] ∧ g.suffixText = [] := by
  unfold NameGenerator.apply
  by_cases h : name = []
  · rw [if_pos h]
    by_cases h' : g.prefixText = [] ∧ g.suffixText = []
    · rw [if_pos h']; simp [h, h']
    · rw [if_neg h']; simp only [reduceCtorEq, false_iff]; exact fun hh => h' hh.2
  · rw [if_neg h]; simp [h]

/-- C189.  A component with a name gets its name between prefix and suffix. -/
theorem C189_named (g : NameGenerator) (name : Text) (p : Path) (h : name ≠ []) :
    g.apply name p = some (g.prefixText ++ name ++ g.suffixText) := by
  unfold NameGenerator.apply; rw [if_neg h]

/-- C189.  Components without a name get names which differ from each other, if
the separator does not start with a digit. -/
theorem C189_unnamed_distinct (g : NameGenerator) (p q : Path) (n : Text)
    (hs : GoodSeparator g.separator) (hp : g.apply [] p = some n) (hq : g.apply [] q = some n) :
    p = q := by
  unfold NameGenerator.apply at hp hq
  rw [if_pos rfl] at hp hq
  by_cases h : g.prefixText = [] ∧ g.suffixText = []
  · rw [if_pos h] at hp; simp at hp
  · rw [if_neg h] at hp hq
    refine pathText_inj hs ?_
    have := hp.trans hq.symm
    simp only [Option.some.injEq] at this
    by_cases h2 : g.suffixText ≠ []
    · rw [if_pos h2, if_pos h2] at this
      exact List.append_cancel_left (List.append_cancel_right (List.append_cancel_right this))
    · rw [if_neg h2, if_neg h2] at this
      exact List.append_cancel_left this

example : GoodSeparator NameGenerator.default.separator := by
  change Char.isDigit '_' = false
  decide

example : (NameGenerator.mk ['u'] [] ['_']).apply [] [1, 12] = some ['u', '_', '1', '_', '1', '2'] :=
  by decide +kernel

/-- C189.  The condition on the separator is needed: without a separator two
components get the same name. -/
theorem C189_no_separator_false :
    (NameGenerator.mk ['u'] [] []).apply [] [1, 1] = (NameGenerator.mk ['u'] [] []).apply [] [11] ∧
    (NameGenerator.mk ['u'] [] []).apply [] [11] ≠ none := by
  decide +kernel

/-- C189.  Giving a name to a vector space gives names to its components which
differ from each other, and leaves all else as it is. -/
theorem C189_vector_name (name n : Text) (k : Kind) (s : Bool) (cs : List (Text × Kind × Bool)) :
    ∃ names : List Text, names.length = cs.length ∧ names.Nodup ∧
      setVectorName name (.vector n k s (cs.map fun c => .leaf c.1 c.2.1 c.2.2))
        = .vector name k s ((names.zip cs).map fun c => .leaf c.1 c.2.2.1 c.2.2.2) := by
  refine ⟨(List.range cs.length).map fun i => name ++ ['_'] ++ Nat.toDigits 10 i, by simp, ?_, ?_⟩
  · refine List.Nodup.map ?_ List.nodup_range
    intro a b h
    exact digits_inj (List.append_cancel_left h)
  · unfold setVectorName
    simp only
    congr 1
    apply List.ext_getElem?
    intro i
    simp only [List.getElem?_mapIdx, List.getElem?_map]
    by_cases hi : i < cs.length
    · simp [List.zip, hi]
    · simp [List.zip, hi]

end Verif
