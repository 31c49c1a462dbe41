import Verif.Proofs.Views
import Mathlib.Algebra.Order.Ring.Rat
import Mathlib.Algebra.Field.Rat
import Mathlib.Tactic.NormNum
/-
Properties of interpolation and of the views on the degrees of freedom of an element.
-/
set_option linter.unusedSectionVars false

namespace Verif

open Views Views.Spec

variable {I J K P : Type} [DecidableEq I] [DecidableEq J] [Ring K]

/-! ### C156: interpolation -/

/-- C156. If everything that is interpolated into a degree of freedom, on whatever element, is the same coefficient, the degree of freedom
has this coefficient afterwards. -/
theorem C156_value (es : List (Element I P K)) (x x' : I → K) (h : interpolate es x = some x') (c : I) (v : K)
    (he : ∃ e ∈ es, Coefficient e c v) (hall : ∀ e ∈ es, ∀ w, Coefficient e c w → w = v) : x' c = v := by
  obtain ⟨ws, rfl, hw⟩ := interpolate_writes es x x' h
  refine applyWrites_value c v ws x ?_ ?_
  · rintro ⟨c', w⟩ h1 h2
    obtain ⟨e, h3, h4⟩ := (hw c' w).mp h1
    simp only at h2
    subst h2
    exact hall e h3 w h4
  · exact ⟨(c, v), (hw c v).mpr he, rfl⟩

/-- C156. Degrees of freedom into which nothing is interpolated keep their value. -/
theorem C156_untouched (es : List (Element I P K)) (x x' : I → K) (h : interpolate es x = some x') (c : I)
    (hall : ∀ e ∈ es, ∀ w, ¬ Coefficient e c w) : x' c = x c := by
  obtain ⟨ws, rfl, hw⟩ := interpolate_writes es x x' h
  refine applyWrites_untouched c ws x ?_
  rintro ⟨c', w⟩ h1 h2
  obtain ⟨e, h3, h4⟩ := (hw c' w).mp h1
  simp only at h2
  subst h2
  exact hall e h3 w h4

/-- C156. If elements differ about a coefficient, that of the last element counts. -/
theorem C156_last (es₁ es₂ : List (Element I P K)) (e : Element I P K) (x x' : I → K) (h : interpolate (es₁ ++ e :: es₂) x = some x')
    (c : I) (v : K) (he : Coefficient e c v) (hall : ∀ w, Coefficient e c w → w = v) (hlast : ∀ e' ∈ es₂, ∀ w, ¬ Coefficient e' c w) :
    x' c = v := by
  unfold interpolate at h
  rw [List.foldlM_append] at h
  obtain ⟨x1, _, h2⟩ := Option.bind_eq_some_iff.mp h
  rw [List.foldlM_cons] at h2
  obtain ⟨x2, h3, h4⟩ := Option.bind_eq_some_iff.mp h2
  rw [C156_untouched es₂ x2 x' h4 c hlast]
  refine C156_value [e] x1 x2 ?_ c v ⟨e, by simp, he⟩ ?_
  · unfold interpolate
    rw [List.foldlM_cons, h3]
    rfl
  · intro e' he' w hw
    rw [List.mem_singleton.mp he'] at hw
    exact hall w hw

/-- C156. Interpolation succeeds if the tree of functions fits the tree of spaces on every element. -/
theorem C156_defined (es : List (Element I P K)) (x : I → K) (h : ∀ e ∈ es, Fits e.functions e.spaces) : ∃ x', interpolate es x = some x' := by
  rw [interpolate_eq]
  obtain ⟨bs, hbs⟩ := mapM_isSome (fun e : Element I P K => pairWrites e.cache e.functions e.spaces) es fun e he =>
    pairWrites_some e.cache e.functions e.spaces (h e he)
  exact ⟨_, by rw [hbs]; rfl⟩

/-- C156. Interpolating a function of the space gives its coefficients on all elements that are visited. -/
theorem C156_roundtrip (es : List (Element I P K)) (x₀ x x' : I → K) (h : interpolate es x₀ = some x')
    (phi : LeafSpace P K → Nat → P → List K) (m : LeafSpace P K → Nat)
    (hdual : ∀ e ∈ es, ∀ g lfs interp, Assigned e.functions e.spaces g lfs → lfs.interpolation = some interp →
      ∀ (u : Nat → K), ∀ i < lfs.child.size,
        (interp fun p => (List.range (m lfs)).map fun k =>
          ((List.range lfs.child.size).map fun j => u j * (phi lfs j p).getD k 0).sum)[i]? = some (u i))
    (hfunction : ∀ e ∈ es, ∀ g lfs, Assigned e.functions e.spaces g lfs → g = discreteFunction e lfs (phi lfs) (m lfs) x) :
    ∀ c, (∃ e ∈ es, ∃ v, Coefficient e c v) → x' c = x c := by
  have key : ∀ e ∈ es, ∀ c w, Coefficient e c w → w = x c := by
    rintro e he c w ⟨g, lfs, interp, ha, hi, i, hlt, hc, hv⟩
    have h1 := hdual e he g lfs interp ha hi (fun j => x (e.cache.containerIndex (lfs.child.localIndex j))) i hlt
    rw [hfunction e he g lfs ha] at hv
    unfold discreteFunction at hv
    rw [h1, hc] at hv
    exact (Option.some.inj hv).symm
  rintro c ⟨e, he, v, hv⟩
  have h1 := key e he c v hv
  subst h1
  exact C156_value es x₀ x' h c (x c) ⟨e, he, hv⟩ fun e' he' w hw => key e' he' c w hw

/-- Linear finite elements on the interval from 0 to 1. -/
def viewsP1 : LeafSpace ℚ ℚ where
  child := { size := 2, localIndex := id }
  interpolation := some fun f => [(f 0).getD 0 0, (f 1).getD 0 0]

/-- A leaf without finite element on the element. -/
def viewsEmpty : LeafSpace ℚ ℚ where
  child := { size := 0, localIndex := id }
  interpolation := none

/-- An element with two degrees of freedom. -/
def viewsElement (first : Nat) (f : ℚ → List ℚ) : Element Nat ℚ ℚ where
  cache := { size := 2, containerIndex := fun i => first + i }
  functions := .leaf 1 f
  spaces := .leaf viewsP1

/-- C156 fails for functions that are interpolated into a composed space with a leaf that has no degrees of freedom on an element (a
variable that lives on a part of the grid): the check for this exists only where a leaf function meets a leaf space. -/
theorem C156_false : ∃ (f : ℚ → List ℚ) (ss : List (Spaces ℚ ℚ)) (cache : Cache Nat) (x : Nat → ℚ),
    (∀ lfs ∈ (Spaces.node ss).leaves, lfs.child.size = 0 ∨ Ready lfs) ∧
    (∀ s ∈ ss, Fits (.leaf 1 f) s) ∧
    interpolate [{ cache := cache, functions := .leaf 1 f, spaces := .node ss }] x = none := by
  refine ⟨fun _ => [1], [.leaf viewsP1, .leaf viewsEmpty], { size := 2, containerIndex := id }, fun _ => 0, ?_, ?_, ?_⟩
  · intro lfs h
    simp only [Spaces.leaves, leavesList, List.append_nil, List.singleton_append, List.mem_cons, List.not_mem_nil, or_false] at h
    rcases h with rfl | rfl
    · exact Or.inr ⟨_, rfl, fun _ => rfl⟩
    · exact Or.inl rfl
  · intro s h
    simp only [List.mem_cons, List.not_mem_nil, or_false] at h
    rcases h with rfl | rfl
    · exact .leaf 1 _ _ (Or.inr ⟨_, rfl, fun _ => rfl⟩)
    · exact .leaf 1 _ _ (Or.inl rfl)
  · simp [interpolate, interpolatePair, interpolateScalar, leavesList, Spaces.leaves, interpolateLeaf, viewsEmpty, viewsP1]

/-! Two neighbouring elements share degree of freedom 1; the function `p ↦ 2p+3` on the first and `p ↦ 5-p` on the second element. -/

example : interpolate [viewsElement 0 fun p => [2 * p + 3], viewsElement 1 fun p => [5 - p]] (fun _ => 0) ≠ none := by
  obtain ⟨x', h⟩ := C156_defined [viewsElement 0 fun p => [2 * p + 3], viewsElement 1 fun p => [5 - p]] (fun _ => (0 : ℚ)) (by
    intro e he
    simp only [List.mem_cons, List.not_mem_nil, or_false] at he
    rcases he with rfl | rfl <;> exact .leaf 1 _ _ (Or.inr ⟨_, rfl, fun _ => rfl⟩))
  rw [h]
  simp

example : Coefficient (viewsElement 0 fun p => [2 * p + 3]) 1 (5 : ℚ) ∧ Coefficient (viewsElement 1 fun p => [5 - p]) 1 (5 : ℚ) := by
  refine ⟨⟨_, viewsP1, _, .leaf 1 _ _ (by simp [viewsP1]), rfl, 1, by simp [viewsP1], rfl, by norm_num⟩,
    ⟨_, viewsP1, _, .leaf 1 _ _ (by simp [viewsP1]), rfl, 0, by simp [viewsP1], rfl, by norm_num⟩⟩

example : (interpolate [viewsElement 0 fun p => [2 * p + 3], viewsElement 1 fun p => [5 - p]] (fun _ => 0)).map
    (fun x => [x 0, x 1, x 2, x 3]) = some [3, 5, 4, 0] := by
  simp [interpolate, interpolatePair, interpolateLeaf, viewsElement, viewsP1, writeSub, List.range_succ, assign]
  norm_num

/-- A vector-valued function with two components and a composed space. -/
example : (interpolate [(⟨⟨4, id⟩, .leaf 2 (fun p => [p, 7 + p]),
      .node [.leaf viewsP1, .node [.leaf { viewsP1 with child := { size := 2, localIndex := fun i => 2 + i } }]]⟩ : Element Nat ℚ ℚ)]
    (fun (_ : Nat) => (0 : ℚ))).map (fun x => [x 0, x 1, x 2, x 3]) = some [0, 1, 7, 8] := by
  simp [interpolate, interpolatePair, interpolateComponents, interpolateLeaf, viewsP1, writeSub, List.range_succ, assign, leavesList,
    Spaces.leaves]
  norm_num

/-- The hypothesis on dual bases holds for linear finite elements. -/
example (u : Nat → ℚ) : ∀ i < 2, ((fun f : ℚ → List ℚ => [(f 0).getD 0 0, (f 1).getD 0 0]) fun p => (List.range 1).map fun k =>
    ((List.range 2).map fun j => u j * (([[1 - p], [p]] : List (List ℚ)).getD j []).getD k 0).sum)[i]? = some (u i) := by
  intro i hi
  rcases (by omega : i = 0 ∨ i = 1) with rfl | rfl <;> simp [List.range_succ]

/-! ### C157: views -/

/-- C157. Reading through a view copies the entries of the element into the local container. -/
theorem C157_read (x : I → K) (cache : Cache I) (l : List K) (h : cache.size ≤ l.length) :
    ∃ l', read x cache l = some l' ∧ Read cache.size id (fun i => x (cache.containerIndex i)) l l' :=
  store_loop id (fun i => x (cache.containerIndex i)) l cache.size (fun i hi => by simp only [id]; omega)
    fun i _ j _ he => by rw [show i = j from he]

/-- C157. Reading for a child copies the entries of the child to their places in the local container of the whole space. -/
theorem C157_readChild (x : I → K) (cache : Cache I) (child : Child) (l : List K) (h : ∀ i < child.size, child.localIndex i < l.length) :
    ∃ l', readChild x cache child l = some l' ∧
      Read child.size child.localIndex (fun i => x (cache.containerIndex (child.localIndex i))) l l' :=
  store_loop child.localIndex (fun i => x (cache.containerIndex (child.localIndex i))) l child.size h
    fun i _ j _ he => by simp only [he]

/-- C157. Reading a sub-container puts the entries of the child at the beginning of the local container. -/
theorem C157_readSub (x : I → K) (cache : Cache I) (child : Child) (l : List K) (h : child.size ≤ l.length) :
    ∃ l', readSub x cache child l = some l' ∧ Read child.size id (fun i => x (cache.containerIndex (child.localIndex i))) l l' :=
  store_loop id (fun i => x (cache.containerIndex (child.localIndex i))) l child.size (fun i hi => by simp only [id]; omega)
    fun i _ j _ he => by rw [show i = j from he]

/-- C157. Writing assigns the local container to the entries of the element and to no other entries. -/
theorem C157_write (x : I → K) (cache : Cache I) (l : List K) (h : cache.size ≤ l.length) (hd : Distinct cache.size cache.containerIndex) :
    ∃ x', write cache l x = some x' ∧ Written cache.size cache.containerIndex (fun i => l.getD i 0) x x' :=
  write_loop cache.containerIndex id l x cache.size (fun i hi => by simp only [id]; omega) fun i hi j hj he => hd i hi j hj he

/-- C157. Writing for a child takes the entries from the places of the child in the local container of the whole space. -/
theorem C157_writeChild (x : I → K) (cache : Cache I) (child : Child) (l : List K) (h : ∀ i < child.size, child.localIndex i < l.length)
    (hd : Distinct child.size fun i => cache.containerIndex (child.localIndex i)) :
    ∃ x', writeChild cache child l x = some x' ∧
      Written child.size (fun i => cache.containerIndex (child.localIndex i)) (fun i => l.getD (child.localIndex i) 0) x x' :=
  write_loop (fun i => cache.containerIndex (child.localIndex i)) child.localIndex l x child.size h
    fun i hi j hj he => by rw [hd i hi j hj he]

/-- C157. Writing a sub-container takes the entries from the beginning of the local container. -/
theorem C157_writeSub (x : I → K) (cache : Cache I) (child : Child) (l : List K) (h : child.size ≤ l.length)
    (hd : Distinct child.size fun i => cache.containerIndex (child.localIndex i)) :
    ∃ x', writeSub cache child l x = some x' ∧
      Written child.size (fun i => cache.containerIndex (child.localIndex i)) (fun i => l.getD i 0) x x' :=
  write_loop (fun i => cache.containerIndex (child.localIndex i)) id l x child.size (fun i hi => by simp only [id]; omega)
    fun i hi j hj he => hd i hi j hj he

/-- C157. Adding adds each entry of the local container to the entry of the element; nothing is lost if entries of the element coincide. -/
theorem C157_add (x : I → K) (cache : Cache I) (l : List K) (h : cache.size ≤ l.length) :
    ∃ x', add cache l x = some x' ∧ Added cache.size cache.containerIndex (fun i => l.getD i 0) x x' :=
  add_loop cache.containerIndex id l x cache.size (fun i hi => by simp only [id]; omega)

/-- C157. The same for a child. -/
theorem C157_addChild (x : I → K) (cache : Cache I) (child : Child) (l : List K) (h : ∀ i < child.size, child.localIndex i < l.length) :
    ∃ x', addChild cache child l x = some x' ∧
      Added child.size (fun i => cache.containerIndex (child.localIndex i)) (fun i => l.getD (child.localIndex i) 0) x x' :=
  add_loop (fun i => cache.containerIndex (child.localIndex i)) child.localIndex l x child.size h

/-- C157. The same for a sub-container. -/
theorem C157_addSub (x : I → K) (cache : Cache I) (child : Child) (l : List K) (h : child.size ≤ l.length) :
    ∃ x', addSub cache child l x = some x' ∧
      Added child.size (fun i => cache.containerIndex (child.localIndex i)) (fun i => l.getD i 0) x x' :=
  add_loop (fun i => cache.containerIndex (child.localIndex i)) id l x child.size (fun i hi => by simp only [id]; omega)

/-- C157. What is written is read again. -/
theorem C157_roundtrip (x : I → K) (cache : Cache I) (l l₀ : List K) (h : cache.size = l.length) (h₀ : l₀.length = l.length)
    (hd : Distinct cache.size cache.containerIndex) : (write cache l x).bind (fun x' => read x' cache l₀) = some l := by
  obtain ⟨x', h1, h2, _⟩ := C157_write x cache l (by omega) hd
  obtain ⟨l', h3, h4, h5, _⟩ := C157_read x' cache l₀ (by omega)
  rw [h1, Option.bind_some, h3]
  congr 1
  apply List.ext_getElem?
  intro i
  by_cases hi : i < cache.size
  · have h6 := h5 i hi
    simp only [id] at h6
    have h7 := h2 i hi
    rw [h6, h7]
    have hi' : i < l.length := by omega
    simp only [List.getD_eq_getElem _ _ hi', List.getElem?_eq_getElem hi']
  · rw [List.getElem?_eq_none (by omega), List.getElem?_eq_none (by omega)]

/-- C157. Reading a block of a matrix. -/
theorem C157_readMatrix (a : I → J → K) (rows : Cache I) (cols : Cache J) (n m : Nat) (l : Nat → Nat → K) (hn : rows.size ≤ n)
    (hm : cols.size ≤ m) : ∃ l', readMatrix a rows cols n m l = some l' ∧
      (∀ i < rows.size, ∀ j < cols.size, l' i j = a (rows.containerIndex i) (cols.containerIndex j)) ∧
      ∀ i j, ¬ (i < rows.size ∧ j < cols.size) → l' i j = l i j := by
  obtain ⟨l', h1, h2, h3⟩ := matrix_write_loop id id n m (fun i j => a (rows.containerIndex i) (cols.containerIndex j))
    (entries rows.size cols.size) l
    (fun p hp => by have := (mem_entries _ _ p.1 p.2).mp hp; omega) (fun p _ q _ h1 h2 => Prod.ext h1 h2)
  refine ⟨l', h1, fun i hi j hj => h2 (i, j) ((mem_entries _ _ i j).mpr ⟨hi, hj⟩), ?_⟩
  intro i j hij
  refine h3 i j ?_
  rintro ⟨p, q⟩ hp ⟨h4, h5⟩
  simp only [id] at h4 h5
  subst h4 h5
  exact hij ((mem_entries _ _ p q).mp hp)

/-- C157. Writing a block of a matrix. -/
theorem C157_writeMatrix (a : I → J → K) (rows : Cache I) (cols : Cache J) (n m : Nat) (l : Nat → Nat → K) (hn : rows.size ≤ n)
    (hm : cols.size ≤ m) (hr : Distinct rows.size rows.containerIndex) (hc : Distinct cols.size cols.containerIndex) :
    ∃ a', writeMatrix rows cols n m l a = some a' ∧
      (∀ i < rows.size, ∀ j < cols.size, a' (rows.containerIndex i) (cols.containerIndex j) = l i j) ∧
      ∀ u v, (¬ ∃ i < rows.size, ∃ j < cols.size, rows.containerIndex i = u ∧ cols.containerIndex j = v) → a' u v = a u v := by
  obtain ⟨a', h1, h2, h3⟩ := matrix_write_loop rows.containerIndex cols.containerIndex n m l (entries rows.size cols.size) a
    (fun p hp => by have := (mem_entries _ _ p.1 p.2).mp hp; omega)
    (fun p hp q hq h1 h2 => by
      have hp' := (mem_entries _ _ p.1 p.2).mp hp
      have hq' := (mem_entries _ _ q.1 q.2).mp hq
      exact Prod.ext (hr _ hp'.1 _ hq'.1 h1) (hc _ hp'.2 _ hq'.2 h2))
  refine ⟨a', h1, fun i hi j hj => h2 (i, j) ((mem_entries _ _ i j).mpr ⟨hi, hj⟩), ?_⟩
  intro u v huv
  refine h3 u v ?_
  rintro ⟨p, q⟩ hp ⟨h4, h5⟩
  have hp' := (mem_entries _ _ p q).mp hp
  exact huv ⟨p, hp'.1, q, hp'.2, h4, h5⟩

/-- C157. Adding a block to a matrix; nothing is lost if entries of the block coincide. -/
theorem C157_addMatrix (a : I → J → K) (rows : Cache I) (cols : Cache J) (n m : Nat) (l : Nat → Nat → K) (hn : rows.size ≤ n)
    (hm : cols.size ≤ m) : ∃ a', addMatrix rows cols n m l a = some a' ∧ ∀ u v, a' u v = a u v +
      ((List.range rows.size).map fun i => ((List.range cols.size).map fun j =>
        if rows.containerIndex i = u ∧ cols.containerIndex j = v then l i j else 0).sum).sum := by
  obtain ⟨a', h1, h2⟩ := matrix_add_loop rows.containerIndex cols.containerIndex n m l (entries rows.size cols.size) a
    (fun p hp => by have := (mem_entries _ _ p.1 p.2).mp hp; omega)
  refine ⟨a', h1, ?_⟩
  intro u v
  rw [h2 u v]
  congr 1
  unfold entries
  rw [List.map_flatMap]
  generalize List.range rows.size = rs
  induction rs with
  | nil => rfl
  | cons r rs ih =>
    rw [List.flatMap_cons, List.sum_append, ih, List.map_cons, List.sum_cons, List.map_map]
    rfl

/-- C157. If the degrees of freedom of the element are stored one after the other, the aliased view gives the entries of the container. -/
theorem C157_aliasedGet (address : I → Nat) (cache : Cache I) (child : Child) (memory : Nat → K) (hc : Contiguous address cache)
    (i : Nat) (hi : child.localIndex i < cache.size) :
    aliasedGet memory (aliasedData address cache) child i = memory (address (cache.containerIndex (child.localIndex i))) := by
  unfold aliasedGet aliasedData
  rw [hc _ hi]

/-- C157. Accumulating through the aliased view adds the weighted value to the entry of the container and to no other entry. -/
theorem C157_aliasedAccumulate (address : I → Nat) (cache : Cache I) (child : Child) (weight v : K) (memory : Nat → K)
    (hc : Contiguous address cache) (hinj : ∀ c d, address c = address d → c = d) (n : Nat) (hn : child.localIndex n < cache.size) (c : I) :
    aliasedAccumulate (aliasedData address cache) weight child n v memory (address c)
      = memory (address c) + (if c = cache.containerIndex (child.localIndex n) then weight * v else 0) := by
  unfold aliasedAccumulate aliasedData assign
  rw [← hc _ hn]
  by_cases h : c = cache.containerIndex (child.localIndex n)
  · rw [if_pos h, if_pos (by rw [h]), h]
  · rw [if_neg h, if_neg fun h' => h (hinj _ _ h'), add_zero]

/-- C157. Accumulating through the aliased view of a matrix: `accumulate` adds the weighted value, `rawAccumulate` the value itself. -/
theorem C157_aliasedMatrix (address : I → J → Nat) (rows : Cache I) (cols : Cache J) (lfsv lfsu : Child) (weight v : K) (memory : Nat → K)
    (hc : ContiguousBlock address rows cols) (hinj : ∀ c c' d d', address c c' = address d d' → c = d ∧ c' = d') (i j : Nat)
    (hi : lfsv.localIndex i < rows.size) (hj : lfsu.localIndex j < cols.size) (c : I) (d : J) :
    aliasedMatrixAccumulate cols (aliasedMatrixData address rows cols) weight lfsv i lfsu j v memory (address c d)
        = memory (address c d) + (if c = rows.containerIndex (lfsv.localIndex i) ∧ d = cols.containerIndex (lfsu.localIndex j)
          then weight * v else 0) ∧
      aliasedMatrixRawAccumulate cols (aliasedMatrixData address rows cols) weight lfsv i lfsu j v memory (address c d)
        = memory (address c d) + (if c = rows.containerIndex (lfsv.localIndex i) ∧ d = cols.containerIndex (lfsu.localIndex j)
          then v else 0) := by
  unfold aliasedMatrixAccumulate aliasedMatrixRawAccumulate aliasedMatrixData assign
  rw [← hc _ hi _ hj]
  by_cases h : c = rows.containerIndex (lfsv.localIndex i) ∧ d = cols.containerIndex (lfsu.localIndex j)
  · obtain ⟨rfl, rfl⟩ := h
    simp
  · rw [if_neg h, if_neg h, if_neg fun h' => h (hinj _ _ _ _ h'), if_neg fun h' => h (hinj _ _ _ _ h'), add_zero]
    exact ⟨rfl, rfl⟩

/-- C157. With the weight one, `rawAccumulate` on the aliased view of a vector adds the value. -/
theorem C157_raw_partial (address : I → Nat) (cache : Cache I) (child : Child) (v : K) (memory : Nat → K)
    (hc : Contiguous address cache) (hinj : ∀ c d, address c = address d → c = d) (n : Nat) (hn : child.localIndex n < cache.size) (c : I) :
    aliasedRawAccumulate (aliasedData address cache) 1 child n v memory (address c)
      = memory (address c) + (if c = cache.containerIndex (child.localIndex n) then v else 0) := by
  unfold aliasedRawAccumulate
  rw [C157_aliasedAccumulate address cache child 1 v memory hc hinj n hn c, one_mul]

/-- C157 fails for `rawAccumulate` on the aliased view of a vector: it applies the weight. Local operators that have applied the weight
already get its square. -/
theorem C157_raw_false : ∃ (address : Nat → Nat) (cache : Cache Nat) (child : Child) (weight v : ℚ) (memory : Nat → ℚ),
    Contiguous address cache ∧ (∀ c d, address c = address d → c = d) ∧ child.localIndex 0 < cache.size ∧
    aliasedRawAccumulate (aliasedData address cache) weight child 0 (weight * v) memory (address (cache.containerIndex (child.localIndex 0)))
      ≠ memory (address (cache.containerIndex (child.localIndex 0))) + weight * v := by
  refine ⟨id, { size := 2, containerIndex := fun i => 4 + i }, { size := 1, localIndex := fun _ => 1 }, 1 / 2, 1, fun _ => 0, ?_, ?_, ?_, ?_⟩
  · intro i _
    simp
  · intro c d h
    exact h
  · simp
  · simp [aliasedRawAccumulate, aliasedAccumulate, aliasedData, assign]

/-! Four degrees of freedom with indices 10 to 13, of which a child has the last two. -/

example : (write { size := 4, containerIndex := fun i => 10 + i } [1, 2, 3, 4] (fun _ => (0 : ℚ))).map (fun x => [x 10, x 13, x 14])
    = some [1, 4, 0] := by
  simp [write, List.range_succ, assign]

example : Distinct 4 fun i : Nat => 10 + i := fun i _ j _ h => by simp only at h; omega

example : (writeSub { size := 4, containerIndex := fun i => 10 + i } { size := 2, localIndex := fun i => 2 + i } [7, 8] (fun _ => (0 : ℚ))).map
    (fun x => [x 10, x 12, x 13]) = some [0, 7, 8] := by
  simp [writeSub, List.range_succ, assign]

/-- Two degrees of freedom that are the same entry of the container. -/
example : (add { size := 2, containerIndex := fun _ => 5 } [1, 2] (fun _ => (10 : ℚ))).map (fun x => [x 5, x 6]) = some [13, 10] := by
  simp [add, List.range_succ, assign]
  norm_num

example : Contiguous (fun i : Nat => 100 + i) { size := 4, containerIndex := fun i => 10 + i } := fun i _ => by simp; omega

example : ContiguousBlock (fun (i j : Nat) => 100 + i * 2 + j) { size := 3, containerIndex := id } { size := 2, containerIndex := id } :=
  fun i _ j _ => by simp; omega

end Verif
