import Verif.Proofs.FunctionTree
/-
Properties of trees of grid functions and local function trees.
-/
namespace Verif

open FunctionTree FunctionTree.Spec

variable {T E X R : Type}

/-! ### C196: the time of functions in trees -/

/-- C196. In every program: a leaf function of a tree is evaluated at the time that was set last by `setTime` of any tree (or part of a tree)
containing a leaf that stores its time in the same place, or by `setTime` of the parameter object it refers to. -/
theorem C196_history (value : Nat → T → E → X → R) (pre post : List (Op T E)) (op : Op T E) (s : State T E)
    (h : run State.init (pre ++ op :: post) = some s) (j : Nat) (path : List Nat) (i : Nat) (o : LeafObject) (hl : IsLeaf s j path i)
    (ho : s.objects[i]? = some o) (t : T) (hset : SetsTime s op o.cell t) (hpost : ∀ a ∈ post, ∀ t', ¬ SetsTime s a o.cell t')
    (hold : ∃ s0, run State.init pre = some s0 ∧ o.cell < s0.cells.length) (e : E) (x : X) :
    evalTree value s j path e x = some (value o.fn t e x) := by
  obtain ⟨s0, h0, hc⟩ := hold
  rw [run_append, h0, Option.bind_some] at h
  simp only [run] at h
  rcases Option.eq_none_or_eq_some (step s0 op) with h' | ⟨s1, h'⟩
  · simp [h'] at h
  · simp only [h'] at h
    have hw := run_wf init_wf h0
    obtain ⟨a1, a2, a3, _⟩ := step_grows h'
    obtain ⟨b1, b2, b3, _⟩ := run_grows h
    have hcell : s.cells[o.cell]? = some t := by
      rw [run_cells (step_wf hw h') h o.cell (by omega) hpost]
      exact (step_cells h' o.cell hc).1 t ((setsTime_later hw h' (a1.trans b1) (a2.trans b2) _ _).2 hset)
    obtain ⟨tree, ht, hp⟩ := hl
    simp only [evalTree, ht, hp, evalObject, ho, hcell]

/-- C196. `setTime` of a tree or a part of it: the time of each leaf below is the given one. -/
theorem C196_setTime (value : Nat → T → E → X → R) (ops : List (Op T E)) (s s' : State T E) (hr : run State.init ops = some s) (j : Nat)
    (path : List Nat) (t : T) (h : step s (.setTime j path t) = some s') (q : List Nat) (i : Nat) (hl : IsLeaf s j (path ++ q) i) :
    ∃ o, s.objects[i]? = some o ∧ ∀ e x, evalTree value s' j (path ++ q) e x = some (value o.fn t e x) := by
  have hw := run_wf init_wf hr
  obtain ⟨tree, ht, hp⟩ := hl
  have hi := hw.2 tree (List.mem_of_getElem? ht) i ((mem_leaves _ _).2 ⟨_, hp⟩)
  obtain ⟨a1, a2, _, _⟩ := step_grows h
  refine ⟨s.objects[i], List.getElem?_eq_getElem hi, fun e x => ?_⟩
  have hcell := (step_cells h (s.objects[i]).cell (hw.1 _ (List.getElem_mem hi))).1 t
    ⟨rfl, q, i, ⟨tree, ht, hp⟩, s.objects[i], List.getElem?_eq_getElem hi, rfl⟩
  simp only [evalTree, prefix_get a1 ht, hp, evalObject, prefix_get a2 (List.getElem?_eq_getElem hi), hcell]

/-- C196. Other functions are not affected: an operation that does not set the time of a leaf does not change its values. -/
theorem C196_frame (value : Nat → T → E → X → R) (ops : List (Op T E)) (s s' : State T E) (hr : run State.init ops = some s) (op : Op T E)
    (h : step s op = some s') (j : Nat) (path : List Nat) (i : Nat) (o : LeafObject) (hl : IsLeaf s j path i) (ho : s.objects[i]? = some o)
    (hn : ∀ t, ¬ SetsTime s op o.cell t) (e : E) (x : X) : evalTree value s' j path e x = evalTree value s j path e x := by
  have hw := run_wf init_wf hr
  obtain ⟨tree, ht, hp⟩ := hl
  obtain ⟨a1, a2, _, _⟩ := step_grows h
  have hcell := (step_cells h o.cell (hw.1 o (List.mem_of_getElem? ho))).2 hn
  simp only [evalTree, ht, prefix_get a1 ht, hp, evalObject, ho, prefix_get a2 ho, hcell]

/-- C196. A tree constructed from references has the given trees as children. -/
theorem C196_references (s s' : State T E) (js : List Nat) (h : step s (.newNode js) = some s') (a j : Nat) (ha : js[a]? = some j)
    (q : List Nat) (i : Nat) : IsLeaf s' s.trees.length (a :: q) i ↔ IsLeaf s j q i := by
  simp only [step] at h
  rcases Option.eq_none_or_eq_some (js.mapM (fun j => s.trees[j]?)) with hm | ⟨ts, hm⟩
  · simp [hm] at h
  · simp only [hm, Option.some.injEq] at h
    subst h
    have key : ∀ (js : List Nat) (ts : List Tree) (a : Nat), js.mapM (fun j => s.trees[j]?) = some ts → js[a]? = some j → ts[a]? = s.trees[j]? := by
      intro js
      induction js with
      | nil => intro ts a _ ha; simp at ha
      | cons b bs ih =>
        intro ts a hm ha
        simp only [List.mapM_cons, Option.bind_eq_bind, Option.pure_def, Option.bind_eq_some_iff, Option.some.injEq] at hm
        obtain ⟨u, hu, us, hus, rfl⟩ := hm
        cases a with
        | zero => simp only [List.getElem?_cons_zero, Option.some.injEq] at ha ⊢; rw [← ha, hu]
        | succ a => simp only [List.getElem?_cons_succ] at ha ⊢; exact ih us a hus ha
    have hk := key js ts a hm ha
    simp only [IsLeaf, List.getElem?_concat_length, Option.some.injEq, exists_eq_left', Tree.at?, hk]
    rcases Option.eq_none_or_eq_some s.trees[j]? with hj | ⟨u, hj⟩
    · simp [hj]
    · simp [hj]

/-- C196. `PowerGridFunction(t)` for a leaf function with its own time: the children are functions with the same values as `t` at present, and their
times are stored in new places that differ from each other, so that setting the time of `t`, or of one of them, does not change the others. -/
theorem C196_clones_partial (value : Nat → T → E → X → R) (ops : List (Op T E)) (s s' : State T E) (hr : run State.init ops = some s) (j k i : Nat)
    (o : LeafObject) (hj : s.trees[j]? = some (.leaf i)) (ho : s.objects[i]? = some o) (hown : o.own = true)
    (h : step s (.newPower j k) = some s') :
    ∀ a < k, ∃ ia ca, IsLeaf s' s.trees.length [a] ia ∧ StoredIn s' ia ca ∧
      (∀ e x, evalTree value s' s.trees.length [a] e x = evalTree value s j [] e x) ∧
      (∀ (i' : Nat) (o' : LeafObject), s.objects[i']? = some o' → ca ≠ o'.cell) ∧
      ∀ b < k, ∀ ib, IsLeaf s' s.trees.length [b] ib → StoredIn s' ib ca → a = b := by
  have hw := run_wf init_wf hr
  have hcell := hw.1 o (List.mem_of_getElem? ho)
  simp only [step, hj, ho, List.getElem?_eq_getElem hcell, Option.some.injEq] at h
  obtain ⟨c1, c2, c3⟩ := copies_spec o s.cells[o.cell] s.cells.length k
  subst h
  have leafAt : ∀ a ia, IsLeaf (⟨s.cells ++ (copies o s.cells[o.cell] s.cells.length k).1, s.objects ++ (copies o s.cells[o.cell] s.cells.length k).2,
      s.trees ++ [.node ((List.range k).map fun a => .leaf (s.objects.length + a))], s.locals⟩ : State T E) s.trees.length [a] ia ↔
      a < k ∧ ia = s.objects.length + a := by
    intro a ia
    simp only [IsLeaf, List.getElem?_concat_length, Option.some.injEq, exists_eq_left', Tree.at?, List.getElem?_map]
    by_cases hak : a < k
    · simp only [List.getElem?_range hak, Option.map_some, Tree.at?, Option.some.injEq, Tree.leaf.injEq, hak, true_and]
      exact eq_comm
    · rw [List.getElem?_eq_none (by simpa using hak)]
      simp [hak]
  have objAt : ∀ a, a < k → (s.objects ++ (copies o s.cells[o.cell] s.cells.length k).2)[s.objects.length + a]? =
      some ⟨o.fn, s.cells.length + a, true⟩ := by
    intro a ha
    rw [List.getElem?_append_right (by omega)]
    have := (c3 a ha).1
    simpa [hown] using this
  intro a ha
  refine ⟨s.objects.length + a, s.cells.length + a, (leafAt a _).2 ⟨ha, rfl⟩, ⟨_, objAt a ha, rfl⟩, fun e x => ?_, ?_, ?_⟩
  · have hc : (s.cells ++ (copies o s.cells[o.cell] s.cells.length k).1)[s.cells.length + a]? = some s.cells[o.cell] := by
      rw [List.getElem?_append_right (by omega)]
      have := (c3 a ha).2 hown
      simpa using this
    simp only [evalTree, List.getElem?_concat_length, Tree.at?, List.getElem?_map, List.getElem?_range ha, Option.map_some, evalObject,
      objAt a ha, hc, hj, ho, List.getElem?_eq_getElem hcell]
  · intro i' o' ho'
    have := hw.1 o' (List.mem_of_getElem? ho')
    omega
  · rintro b hb ib hib ⟨ob, hob, hobc⟩
    obtain ⟨_, rfl⟩ := (leafAt b ib).1 hib
    simp only [objAt b hb, Option.some.injEq] at hob
    subst hob
    simp only at hobc
    omega

/-- A function tree whose leaf refers to a parameter object, and one with a composite child; both are used for `PowerGridFunction(t)`. -/
def ftProgram : List (Op Nat Unit) :=
  [.newLeaf 7 0, .newNode [0], .newPower 1 2, .newParameter 0, .newAdapter 8 1, .newPower 3 2]

/-- C196. `PowerGridFunction(t)` does not make independent clones if `t` is a composite function (the clones share the leaves with `t`), or an adapter
for a callable with a parameter object. -/
theorem C196_clones_false : ∃ s s1 s2 : State Nat Unit, run State.init ftProgram = some s ∧
    step s (.setTime 2 [0] 5) = some s1 ∧ evalTree (fun fn t _ () => (fn, t)) s 2 [1, 0] () () = some (7, 0) ∧
    evalTree (fun fn t _ () => (fn, t)) s1 2 [1, 0] () () = some (7, 5) ∧ evalTree (fun fn t _ () => (fn, t)) s1 1 [0] () () = some (7, 5) ∧
    step s (.setTime 4 [0] 6) = some s2 ∧ evalTree (fun fn t _ () => (fn, t)) s 4 [1] () () = some (8, 0) ∧
    evalTree (fun fn t _ () => (fn, t)) s2 4 [1] () () = some (8, 6) ∧ evalTree (fun fn t _ () => (fn, t)) s2 3 [] () () = some (8, 6) := by
  refine ⟨⟨[0, 0], [⟨7, 0, true⟩, ⟨8, 1, false⟩, ⟨8, 1, false⟩, ⟨8, 1, false⟩],
    [.leaf 0, .node [.leaf 0], .node [.node [.leaf 0], .node [.leaf 0]], .leaf 1, .node [.leaf 2, .leaf 3]], []⟩, _, _,
    rfl, rfl, rfl, rfl, rfl, rfl, rfl, rfl, rfl⟩

/-! ### C197: local function trees -/

/-- C197. In every program: a leaf of a local function tree made from a function tree gives the values of the corresponding leaf of the function tree
(at its present time) on the element that was bound last, where `bind` of a part of a tree containing the leaf counts. -/
theorem C197_bound (value : Nat → T → E → X → R) (mid post : List (Op T E)) (s0 s : State T E) (j : Nat)
    (op : Op T E) (h : run s0 (.newLocal j :: (mid ++ op :: post)) = some s) (q : List Nat) (i : Nat)
    (hl : IsLeaf s j q i) (e : E) (hb : Binds op s0.locals.length q e) (hn : ∀ o ∈ post, ∀ e', ¬ Binds o s0.locals.length q e') (x : X) :
    evalLocal value s s0.locals.length q x = evalTree value s j q e x := by
  simp only [run] at h
  rcases Option.eq_none_or_eq_some (step s0 (.newLocal j)) with h' | ⟨s1, h'⟩
  · simp [h'] at h
  · simp only [h', run_append] at h
    rcases Option.eq_none_or_eq_some (run s1 mid) with hm | ⟨s2, hm⟩
    · simp [hm] at h
    · simp only [hm, Option.bind_some, run] at h
      rcases Option.eq_none_or_eq_some (step s2 op) with hop | ⟨s3, hop⟩
      · simp [hop] at h
      · simp only [hop] at h
        obtain ⟨a1, _, _, _⟩ := step_grows h'
        obtain ⟨b1, _, _, b4⟩ := run_grows hm
        obtain ⟨c1, _, _, c4⟩ := step_grows hop
        obtain ⟨d1, _, _, _⟩ := run_grows h
        simp only [step] at h'
        rcases Option.eq_none_or_eq_some s0.trees[j]? with hj | ⟨tree, hj⟩
        · simp [hj] at h'
        · simp only [hj, Option.some.injEq] at h'
          subst h'
          obtain ⟨tr, htr, hp⟩ := hl
          have := prefix_get (((a1.trans b1).trans c1).trans d1) hj
          rw [htr] at this
          simp only [Option.some.injEq] at this
          subst this
          have e1 : localAt (⟨s0.cells, s0.objects, s0.trees, s0.locals ++ [toLocal E tr]⟩ : State T E) s0.locals.length q = some (i, none) := by
            simp only [localAt, List.getElem?_concat_length, Option.bind_some]
            exact leafAt_toLocal tr q i hp
          have e2 := run_local_object hm s0.locals.length (by simp) q
          simp only at b4
          rw [List.length_append, List.length_singleton] at b4
          rw [e1] at e2
          have e3 := (step_local hop s0.locals.length (by omega) q).1 e hb
          have e4 := run_local h s0.locals.length (by omega) q hn
          rw [evalLocal_eq, e4, e3]
          rcases Option.eq_none_or_eq_some (localAt s2 s0.locals.length q) with hx | ⟨⟨i', el⟩, hx⟩
          · simp [hx] at e2
          · rw [hx] at e2 ⊢
            simp only [Option.map_some, Option.some.injEq] at e2
            subst e2
            simp only [Option.map_some, evalTree, htr, hp]

/-- C197. Before it was bound, a local function must not be evaluated. -/
theorem C197_unbound (value : Nat → T → E → X → R) (mid : List (Op T E)) (s0 s : State T E) (j : Nat)
    (h : run s0 (.newLocal j :: mid) = some s) (q : List Nat) (i : Nat) (hl : IsLeaf s j q i)
    (hn : ∀ o ∈ mid, ∀ e', ¬ Binds o s0.locals.length q e') (x : X) : evalLocal value s s0.locals.length q x = none := by
  simp only [run] at h
  rcases Option.eq_none_or_eq_some (step s0 (.newLocal j)) with h' | ⟨s1, h'⟩
  · simp [h'] at h
  · simp only [h'] at h
    obtain ⟨a1, _, _, _⟩ := step_grows h'
    obtain ⟨b1, _, _, b4⟩ := run_grows h
    simp only [step] at h'
    rcases Option.eq_none_or_eq_some s0.trees[j]? with hj | ⟨tree, hj⟩
    · simp [hj] at h'
    · simp only [hj, Option.some.injEq] at h'
      subst h'
      obtain ⟨tr, htr, hp⟩ := hl
      have := prefix_get (a1.trans b1) hj
      rw [htr] at this
      simp only [Option.some.injEq] at this
      subst this
      rw [evalLocal_eq, run_local h s0.locals.length (by simp) q hn]
      simp only [localAt, List.getElem?_concat_length, Option.bind_some, leafAt_toLocal tr q i hp]

/-! A program: two leaves, one with a parameter object, in a composite function; two local trees bound to different elements. -/

/-- The program. -/
def ftExample : List (Op Nat String) :=
  [.newLeaf 7 0, .newParameter 1, .newAdapter 8 1, .newNode [0, 1], .newLocal 2, .newLocal 2, .bind 0 [] "a", .bind 1 [0] "b",
    .setTime 2 [] 5, .setParameter 1 6, .unbind 0 []]

example : ∃ s, run State.init ftExample = some s ∧
    evalTree (fun fn t (e : String) () => (fn, t, e)) s 2 [0] "c" () = some (7, 5, "c") ∧
    evalTree (fun fn t (e : String) () => (fn, t, e)) s 2 [1] "c" () = some (8, 6, "c") ∧
    evalLocal (fun fn t (e : String) () => (fn, t, e)) s 0 [0] () = some (7, 5, "a") ∧
    evalLocal (fun fn t (e : String) () => (fn, t, e)) s 0 [1] () = some (8, 6, "a") ∧
    evalLocal (fun fn t (e : String) () => (fn, t, e)) s 1 [0] () = some (7, 5, "b") ∧
    evalLocal (fun fn t (e : String) () => (fn, t, e)) s 1 [1] () = none :=
  ⟨⟨[5, 6], [⟨7, 0, true⟩, ⟨8, 1, false⟩], [.leaf 0, .leaf 1, .node [.leaf 0, .leaf 1]],
    [.node [.leaf 0 (some "a"), .leaf 1 (some "a")], .node [.leaf 0 (some "b"), .leaf 1 none]]⟩, rfl, rfl, rfl, rfl, rfl, rfl, rfl⟩

example : ∃ s0 s : State Nat String, run State.init (ftExample.take 4) = some s0 ∧
    run s0 (.newLocal 2 :: ([.newLocal 2] ++ .bind 0 [] "a" :: [.bind 1 [0] "b", .setTime 2 [] 5])) = some s ∧ IsLeaf s 2 [1] 1 ∧
    Binds (Op.bind 0 [] "a" : Op Nat String) s0.locals.length [1] "a" :=
  ⟨⟨[0, 1], [⟨7, 0, true⟩, ⟨8, 1, false⟩], [.leaf 0, .leaf 1, .node [.leaf 0, .leaf 1]], []⟩,
    ⟨[5, 5], [⟨7, 0, true⟩, ⟨8, 1, false⟩], [.leaf 0, .leaf 1, .node [.leaf 0, .leaf 1]],
      [.node [.leaf 0 (some "a"), .leaf 1 (some "a")], .node [.leaf 0 (some "b"), .leaf 1 none]]⟩, rfl, rfl, ⟨_, rfl, rfl⟩, rfl, rfl, [1], rfl⟩

example : ∃ s : State Nat String, run State.init ([.newLeaf 7 0, .newNode [0, 0]] ++ .setTime 1 [1] 3 :: [.newPower 0 2]) = some s ∧
    IsLeaf s 1 [0] 0 ∧ s.objects[0]? = some ⟨7, 0, true⟩ ∧ SetsTime s (.setTime 1 [1] 3) 0 3 ∧
    ∃ s0 : State Nat String, run State.init [.newLeaf 7 0, .newNode [0, 0]] = some s0 ∧ 0 < s0.cells.length :=
  ⟨⟨[3, 3, 3], [⟨7, 0, true⟩, ⟨7, 1, true⟩, ⟨7, 2, true⟩], [.leaf 0, .node [.leaf 0, .leaf 0], .node [.leaf 1, .leaf 2]], []⟩, rfl,
    ⟨_, rfl, rfl⟩, rfl, ⟨rfl, [], 0, ⟨_, rfl, rfl⟩, _, rfl, rfl⟩, ⟨[0], [⟨7, 0, true⟩], [.leaf 0, .node [.leaf 0, .leaf 0]], []⟩, rfl, by decide⟩

end Verif
