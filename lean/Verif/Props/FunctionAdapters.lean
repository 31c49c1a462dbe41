import Verif.Spec.FunctionAdapters
import Verif.Proofs.FunctionTree
import Verif.Proofs.Vtk
import Mathlib.Algebra.BigOperators.Group.List.Basic
import Mathlib.Algebra.BigOperators.Pi
import Mathlib.Algebra.Ring.Int.Defs
/-
Properties of adapters for functions.
-/
namespace Verif

open FunctionAdapters FunctionAdapters.Spec

variable {E I X Y R K T D : Type}

/-! ### C198: adapters for functions -/

/-- C198. A function of global coordinates that is turned into a grid function and back has its old values, at each point that is found in the grid;
where no element is found, there is an exception. -/
theorem C198_function_roundtrip (g : Geometry E X Y) (find : Y → Option E) (f : Y → R) (y : Y) :
    (FindsPoint g find y → gridFunctionToFunction g find (functionToGridFunction g f) y = some (f y)) ∧
    (find y = none → gridFunctionToFunction g find (functionToGridFunction g f) y = none) := by
  constructor
  · rintro ⟨e, he, hg⟩
    simp only [gridFunctionToFunction, he, functionToGridFunction, hg]
  · intro h
    simp only [gridFunctionToFunction, h]

/-- C198. A grid function that is turned into a function of global coordinates has its old values in the interior of elements. -/
theorem C198_gridfunction_roundtrip (g : Geometry E X Y) (find : Y → Option E) (gf : E → X → R) (e : E) (x : X) (h : Interior g find e x) :
    functionToGridFunction g (gridFunctionToFunction g find gf) e x = some (gf e x) := by
  simp only [functionToGridFunction, gridFunctionToFunction, h.1, h.2]

/-- C198. All adapters for functions of global coordinates evaluate at the global position; those for functions on elements
do not change the arguments. -/
theorem C198_coordinates (g : Geometry E X Y) (f : Y → R) (gf : E → X → R) (e : E) (x : X) (y : Y) (hy : g.toGlobal e x = y) :
    analyticGridFunction g f e x = f y ∧ functionToGridFunction g f e x = f y ∧ globalFunctionToLocalFunction g f e x = f y ∧
    globalCallable g f e x = f y ∧ localCallable gf e x = gf e x ∧ gridFunctionToLocalFunction gf e x = gf e x := by
  subst hy
  exact ⟨rfl, rfl, rfl, rfl, rfl, rfl⟩

/-- C198. After any number of calls of `select` the adapter gives the component selected last. -/
theorem C198_select (a : Selected D R) (ks : List Nat) (k : Nat) (x : D) :
    ((ks ++ [k]).foldl Selected.select a).evaluate x = (a.t x)[k]? := by
  have : ∀ (ks : List Nat) (a : Selected D R), (ks.foldl Selected.select a).t = a.t := by
    intro ks
    induction ks with
    | nil => intro a; rfl
    | cons b bs ih => intro a; rw [List.foldl_cons, ih]; rfl
  rw [List.foldl_append, List.foldl_cons, List.foldl_nil]
  simp only [Selected.evaluate, Selected.select, this]

private theorem evaluateAll_eq (storage : List (E → X → R)) (e : E) (x : X) (n i : Nat) (y : List R) (hy : y.length = storage.length)
    (hn : i + n = storage.length) (k : Nat) :
    (evaluateAll storage e x i n y)[k]? = if i ≤ k then storage[k]?.map fun f => f e x else y[k]? := by
  induction n generalizing i y with
  | zero =>
    simp only [evaluateAll]
    split
    · rw [List.getElem?_eq_none (by omega), List.getElem?_eq_none (by omega)]; rfl
    · rfl
  | succ n ih =>
    have hi : i < storage.length := by omega
    simp only [evaluateAll, List.getElem?_eq_getElem hi]
    rw [ih (i + 1) _ (by simpa using hy) (by omega)]
    by_cases h1 : i + 1 ≤ k
    · rw [if_pos h1, if_pos (by omega)]
    · rw [if_neg h1]
      by_cases h2 : i ≤ k
      · have : k = i := by omega
        subst this
        rw [if_pos (Nat.le_refl _), List.getElem?_set_self (by omega), List.getElem?_eq_getElem hi]; rfl
      · rw [if_neg h2, List.getElem?_set_ne (by omega)]

/-- C198. The engine of a pointwise adapter gets the values of all functions at the point, in their order. -/
theorem C198_pointwise (engine : List R → Option R) (zero : R) (storage : List (E → X → R)) (e : E) (x : X) :
    pointwise engine zero storage e x = engine (storage.map fun f => f e x) := by
  unfold pointwise
  congr 1
  apply List.ext_getElem?
  intro k
  rw [evaluateAll_eq storage e x storage.length 0 _ (by simp) (by omega)]
  simp

private theorem sumLoop_eq [CommRing K] {n : Nat} (input : List (Fin n → K)) (m i : Nat) (out : Fin n → K) (h : i + m = input.length) :
    sumLoop input i m out = out + (input.drop i).sum := by
  induction m generalizing i out with
  | zero =>
    rw [List.drop_eq_nil_of_le (by omega)]
    simp [sumLoop]
  | succ m ih =>
    have hi : i < input.length := by omega
    simp only [sumLoop, List.getElem?_eq_getElem hi]
    rw [ih (i + 1) _ (by omega), List.drop_eq_getElem_cons hi, List.sum_cons, ← add_assoc]
    rfl

/-- C198. The sum of functions, and a function times a number, are the pointwise ones; for the latter there must be one function. -/
theorem C198_engines [CommRing K] {n : Nat} (scale : K) (fs : List (E → X → (Fin n → K))) (f : E → X → (Fin n → K)) (e : E) (x : X) :
    pointwise sumEngine (fun _ => 0) fs e x = some (fs.map fun f => f e x).sum ∧
    pointwise (scaleEngine scale) (fun _ => 0) [f] e x = some (fun i => scale * f e x i) ∧
    (fs.length ≠ 1 → pointwise (scaleEngine scale) (fun _ => 0) fs e x = none) := by
  refine ⟨?_, ?_, ?_⟩
  · rw [C198_pointwise, sumEngine, sumLoop_eq _ _ _ _ (by omega), List.drop_zero]
    congr 1
    exact zero_add _
  · rw [C198_pointwise]
    simp only [scaleEngine, List.map_cons, List.map_nil, List.length_singleton, if_true, List.getElem?_cons_zero, Option.map_some]
    congr 1
    funext i
    exact mul_comm _ _
  · intro h
    rw [C198_pointwise]
    simp [scaleEngine, h]

/-- C198. Boundary conditions from callables: exactly one of Dirichlet and Neumann holds at each point, and it is Dirichlet where the callable says so. -/
theorem C198_boundary (g : Geometry I X Y) (f : Y → Bool) (h : I → X → Bool) (i : I) (x : X) :
    (globalIsDirichlet g f i x = true ↔ f (g.toGlobal i x) = true) ∧ (globalIsNeumann g f i x = true ↔ ¬ f (g.toGlobal i x) = true) ∧
    (localIsDirichlet h i x = true ↔ h i x = true) ∧ (localIsNeumann h i x = true ↔ ¬ h i x = true) := by
  simp [globalIsDirichlet, globalIsNeumann, localIsDirichlet, localIsNeumann]

/-- C198. A callable with bound time is called with the time set last at the place of the placeholder; before a time is set it must not be used. -/
theorem C198_bindTime (f : Callable T D R) (first : Bool) (ts : List T) (t : T) (d : D) :
    ((ts ++ [t]).foldl TimeWrapper.setTime (bindTime T first)).apply f d = some (if first then f.timeFirst t d else f.timeSecond d t) ∧
    (bindTime T first).apply f d = none := by
  have : ∀ (ts : List T) (w : TimeWrapper T), (ts.foldl TimeWrapper.setTime w).first = w.first := by
    intro ts
    induction ts with
    | nil => intro a; rfl
    | cons b bs ih => intro a; rw [List.foldl_cons, ih]; rfl
  rw [List.foldl_append, List.foldl_cons, List.foldl_nil]
  simp only [TimeWrapper.apply, TimeWrapper.setTime, this, bindTime, Option.map_some, Option.map_none, and_self]

/-! Names in VTK files. -/

private theorem vtkName_eq (s : List Char) (p : List Nat) : vtkName s p = nameOf s p := by
  have key : ∀ (p q : List Nat) (s : List Char),
      (List.range p.length).foldl (fun name i => name ++ ['_'] ++ Nat.toDigits 10 ((p ++ q).getD i 0)) s
        = s ++ p.flatMap fun a => '_' :: Nat.toDigits 10 a := by
    intro p
    induction p using List.reverseRecOn with
    | nil => intro q s; simp
    | append_singleton p a ih =>
      intro q s
      rw [List.length_append, List.length_singleton, List.range_succ, List.foldl_append, List.append_assoc, ih]
      simp [List.getD_eq_getElem?_getD]
  have := key p [] s
  rw [List.append_nil] at this
  exact this

private theorem nameOf_inj (s : List Char) : ∀ p q : List Nat, nameOf s p = nameOf s q → p = q := by
  intro p q h
  replace h := List.append_cancel_left h
  clear s
  have nd : ∀ (r : List Nat), ∀ c ∈ (r.flatMap fun a => '_' :: Nat.toDigits 10 a).head?, c.isDigit = false := by
    intro r c hc
    cases r with
    | nil => simp at hc
    | cons a r =>
      simp only [List.flatMap_cons, List.cons_append, List.head?_cons, Option.mem_def, Option.some.injEq] at hc
      subst hc; decide
  induction p generalizing q with
  | nil =>
    cases q with
    | nil => rfl
    | cons b q => simp at h
  | cons a p ih =>
    cases q with
    | nil => simp at h
    | cons b q =>
      simp only [List.flatMap_cons, List.cons_append, List.cons.injEq, true_and] at h
      obtain ⟨h1, h2⟩ := Vtk.digits_split (nd p) (nd q) h
      rw [h1, ih q h2]

mutual

private theorem added_mem (s : List Char) : ∀ (t : FunctionTree.Tree) (p : List Nat) (n : List Char) (i : Nat),
    (n, i) ∈ addVertexData s t p ↔ ∃ q, t.at? q = some (.leaf i) ∧ n = nameOf s (p ++ q)
  | .leaf j, p, n, i => by
    simp only [addVertexData, List.mem_singleton, Prod.mk.injEq, vtkName_eq]
    constructor
    · rintro ⟨rfl, rfl⟩
      exact ⟨[], rfl, by simp⟩
    · rintro ⟨q, hq, rfl⟩
      cases q with
      | nil =>
        simp only [FunctionTree.Tree.at?, Option.some.injEq, FunctionTree.Tree.leaf.injEq] at hq
        exact ⟨by simp, hq.symm⟩
      | cons c q => simp [FunctionTree.Tree.at?] at hq
  | .node cs, p, n, i => by
    simp only [addVertexData]
    rw [addedList_mem s cs p 0 n i]
    constructor
    · rintro ⟨c, u, q, hc, hq, hn⟩
      refine ⟨c :: q, by simp only [FunctionTree.Tree.at?, hc, hq], ?_⟩
      simpa using hn
    · rintro ⟨q, hq, hn⟩
      cases q with
      | nil => simp [FunctionTree.Tree.at?] at hq
      | cons c q =>
        simp only [FunctionTree.Tree.at?] at hq
        rcases Option.eq_none_or_eq_some cs[c]? with h | ⟨u, h⟩
        · simp [h] at hq
        · simp only [h] at hq
          exact ⟨c, u, q, h, hq, by simpa using hn⟩

private theorem addedList_mem (s : List Char) : ∀ (ts : List FunctionTree.Tree) (p : List Nat) (c0 : Nat) (n : List Char) (i : Nat),
    (n, i) ∈ addVertexDataList s ts p c0 ↔
      ∃ (c : Nat) (u : FunctionTree.Tree) (q : List Nat), ts[c]? = some u ∧ u.at? q = some (.leaf i) ∧ n = nameOf s (p ++ ((c0 + c) :: q))
  | [], p, c0, n, i => by simp [addVertexDataList]
  | t :: ts, p, c0, n, i => by
    simp only [addVertexDataList, List.mem_append]
    rw [added_mem s t (p ++ [c0]) n i, addedList_mem s ts p (c0 + 1) n i]
    constructor
    · rintro (⟨q, hq, hn⟩ | ⟨c, u, q, hc, hq, hn⟩)
      · exact ⟨0, t, q, rfl, hq, by simpa using hn⟩
      · refine ⟨c + 1, u, q, by simpa using hc, hq, ?_⟩
        rw [hn, show c0 + 1 + c = c0 + (c + 1) by omega]
    · rintro ⟨c, u, q, hc, hq, hn⟩
      cases c with
      | zero =>
        simp only [List.getElem?_cons_zero, Option.some.injEq] at hc
        subst hc
        exact .inl ⟨q, hq, by simpa using hn⟩
      | succ c =>
        refine .inr ⟨c, u, q, by simpa using hc, hq, ?_⟩
        rw [hn, show c0 + 1 + c = c0 + (c + 1) by omega]

end

mutual

private theorem added_nodup (s : List Char) : ∀ (t : FunctionTree.Tree) (p : List Nat), ((addVertexData s t p).map Prod.fst).Nodup ∧
    (addVertexData s t p).map Prod.snd = t.leaves
  | .leaf j, p => by simp [addVertexData, FunctionTree.Tree.leaves]
  | .node cs, p => by
    simp only [addVertexData, FunctionTree.Tree.leaves]
    exact addedList_nodup s cs p 0

private theorem addedList_nodup (s : List Char) : ∀ (ts : List FunctionTree.Tree) (p : List Nat) (c : Nat),
    ((addVertexDataList s ts p c).map Prod.fst).Nodup ∧ (addVertexDataList s ts p c).map Prod.snd = FunctionTree.leavesOfList ts
  | [], p, c => by simp [addVertexDataList, FunctionTree.leavesOfList]
  | t :: ts, p, c => by
    simp only [addVertexDataList, FunctionTree.leavesOfList, List.map_append]
    refine ⟨List.nodup_append.2 ⟨(added_nodup s t _).1, (addedList_nodup s ts p (c + 1)).1, ?_⟩,
      by rw [(added_nodup s t _).2, (addedList_nodup s ts p (c + 1)).2]⟩
    intro n hn m hm hnm
    obtain ⟨⟨n', i⟩, hn', rfl⟩ := List.mem_map.1 hn
    obtain ⟨⟨m', k⟩, hm', rfl⟩ := List.mem_map.1 hm
    obtain ⟨q, _, h1⟩ := (added_mem s t _ _ _).1 hn'
    obtain ⟨d, u, r, _, _, h2⟩ := (addedList_mem s ts _ _ _ _).1 hm'
    simp only at hnm
    rw [h1, h2] at hnm
    have := nameOf_inj s _ _ hnm
    rw [List.append_assoc] at this
    have := List.append_cancel_left this
    simp only [List.singleton_append, List.cons.injEq] at this
    omega

end

/-- C198. `vtkwriter_tree_addvertexdata` adds each leaf of a function tree, in the order of the tree, with a name made from the given text and the
path of the leaf; all names differ. -/
theorem C198_vtk_names (s : List Char) (t : FunctionTree.Tree) :
    (∀ n i, (n, i) ∈ addVertexData s t [] ↔ ∃ q, t.at? q = some (.leaf i) ∧ n = nameOf s q) ∧
    ((addVertexData s t []).map Prod.fst).Nodup ∧ (addVertexData s t []).map Prod.snd = t.leaves := by
  refine ⟨fun n i => ?_, (added_nodup s t []).1, (added_nodup s t []).2⟩
  have := added_mem s t [] n i
  simpa using this

example : addVertexData ['u'] (.node [.leaf 3, .node [.leaf 4, .leaf 3]]) [] =
    [(['u', '_', '0'], 3), (['u', '_', '1', '_', '0'], 4), (['u', '_', '1', '_', '1'], 3)] := by decide +kernel

/-- Elements of length ten on a line. -/
def faLine : Geometry Nat Nat Nat := ⟨fun e x => 10 * e + x, fun e y => y - 10 * e⟩

example : FindsPoint faLine (fun y => if y < 100 then some (y / 10) else none) 37 := ⟨3, rfl, rfl⟩

example : Interior faLine (fun y => if y < 100 then some (y / 10) else none) 3 7 := ⟨rfl, rfl⟩

example : gridFunctionToFunction faLine (fun y => if y < 100 then some (y / 10) else none) (functionToGridFunction faLine fun y => y * y) 37 = some 1369 := by
  decide

example : pointwise (scaleEngine (n := 1) (3 : Int)) (fun _ => 0) [fun e (x : Int) _ => e + x] (4 : Int) 5 = some fun _ => 27 := rfl

end Verif
