import Verif.Spec.FunctionTree
/-
Lemmas about function trees.
-/
namespace Verif.FunctionTree

open Spec

variable {T E : Type}

theorem at?_append (t : Tree) (p q : List Nat) : t.at? (p ++ q) = (t.at? p).bind fun u => u.at? q := by
  induction p generalizing t with
  | nil => rfl
  | cons c p ih =>
    cases t with
    | leaf i => rfl
    | node cs =>
      simp only [List.cons_append, Tree.at?]
      rcases Option.eq_none_or_eq_some cs[c]? with h | ⟨u, h⟩
      · simp [h]
      · simp only [h]; exact ih u

mutual

theorem mem_leaves_of : ∀ (t : Tree) (i : Nat), i ∈ t.leaves → ∃ q, t.at? q = some (.leaf i)
  | .leaf j, i, h => by
    simp only [Tree.leaves, List.mem_singleton] at h
    exact ⟨[], by rw [h]; rfl⟩
  | .node cs, i, h => by
    simp only [Tree.leaves] at h
    obtain ⟨c, u, q, hc, hq⟩ := mem_leavesOfList_of cs i h
    exact ⟨c :: q, by simp only [Tree.at?, hc, hq]⟩

theorem mem_leavesOfList_of : ∀ (ts : List Tree) (i : Nat), i ∈ leavesOfList ts →
    ∃ (c : Nat) (u : Tree) (q : List Nat), ts[c]? = some u ∧ u.at? q = some (.leaf i)
  | [], i, h => by simp [leavesOfList] at h
  | t :: ts, i, h => by
    simp only [leavesOfList, List.mem_append] at h
    rcases h with h | h
    · obtain ⟨q, hq⟩ := mem_leaves_of t i h
      exact ⟨0, t, q, rfl, hq⟩
    · obtain ⟨c, u, q, hc, hq⟩ := mem_leavesOfList_of ts i h
      exact ⟨c + 1, u, q, by simpa using hc, hq⟩

end

theorem leavesOfList_mem {ts : List Tree} {c : Nat} {u : Tree} {i : Nat} (hc : ts[c]? = some u) (hi : i ∈ u.leaves) :
    i ∈ leavesOfList ts := by
  induction ts generalizing c with
  | nil => simp at hc
  | cons t ts ih =>
    simp only [leavesOfList, List.mem_append]
    cases c with
    | zero => simp only [List.getElem?_cons_zero, Option.some.injEq] at hc; left; rw [hc]; exact hi
    | succ c => right; exact ih (by simpa using hc)

theorem mem_leaves (t : Tree) (i : Nat) : i ∈ t.leaves ↔ ∃ q, t.at? q = some (.leaf i) := by
  refine ⟨mem_leaves_of t i, ?_⟩
  rintro ⟨q, hq⟩
  induction q generalizing t with
  | nil => simp only [Tree.at?, Option.some.injEq] at hq; rw [hq]; simp [Tree.leaves]
  | cons c q ih =>
    cases t with
    | leaf j => simp [Tree.at?] at hq
    | node cs =>
      simp only [Tree.at?] at hq
      rcases Option.eq_none_or_eq_some cs[c]? with h | ⟨u, h⟩
      · simp [h] at hq
      · simp only [h] at hq
        simp only [Tree.leaves]
        exact leavesOfList_mem h (ih u hq)

theorem setLeafTime_length (os : List LeafObject) (t : T) (cells : List T) (i : Nat) :
    (setLeafTime os t cells i).length = cells.length := by
  unfold setLeafTime; split <;> simp

theorem fold_length (os : List LeafObject) (t : T) (is : List Nat) (cells : List T) :
    (is.foldl (setLeafTime os t) cells).length = cells.length := by
  induction is generalizing cells with
  | nil => rfl
  | cons i is ih => rw [List.foldl_cons, ih, setLeafTime_length]

/-- What setting the time of some leaves does. -/
theorem fold_get (os : List LeafObject) (t : T) (is : List Nat) (cells : List T) (c : Nat) (hc : c < cells.length) :
    ((∃ i ∈ is, ∃ o, os[i]? = some o ∧ o.cell = c) → (is.foldl (setLeafTime os t) cells)[c]? = some t) ∧
    ((¬ ∃ i ∈ is, ∃ o, os[i]? = some o ∧ o.cell = c) → (is.foldl (setLeafTime os t) cells)[c]? = cells[c]?) := by
  induction is generalizing cells with
  | nil => simp
  | cons i is ih =>
    have hc' : c < (setLeafTime os t cells i).length := by rw [setLeafTime_length]; exact hc
    obtain ⟨ih1, ih2⟩ := ih _ hc'
    rw [List.foldl_cons]
    by_cases hr : ∃ i ∈ is, ∃ o, os[i]? = some o ∧ o.cell = c
    · refine ⟨fun _ => ih1 hr, fun hn => absurd ?_ hn⟩
      obtain ⟨k, hk, h⟩ := hr
      exact ⟨k, List.mem_cons_of_mem _ hk, h⟩
    · rw [ih2 hr]
      constructor
      · rintro ⟨k, hk, o, ho, hoc⟩
        rcases List.mem_cons.1 hk with rfl | hk
        · simp only [setLeafTime, ho, hoc]
          rw [List.getElem?_set_self hc]
        · exact absurd ⟨k, hk, o, ho, hoc⟩ hr
      · intro hn
        unfold setLeafTime
        split
        · rfl
        · rename_i o ho
          rw [List.getElem?_set_ne]
          intro h
          exact hn ⟨i, List.mem_cons_self, o, ho, h⟩

/-- The places where times are stored exist. -/
def WF (s : State T E) : Prop :=
  (∀ o ∈ s.objects, o.cell < s.cells.length) ∧ ∀ t ∈ s.trees, ∀ i ∈ t.leaves, i < s.objects.length

theorem copies_spec (o : LeafObject) (t : T) (n k : Nat) :
    (copies o t n k).2.length = k ∧ (copies o t n k).1.length = (if o.own then k else 0) ∧
    ∀ a < k, (copies o t n k).2[a]? = some (if o.own then ⟨o.fn, n + a, true⟩ else o) ∧
      (o.own = true → (copies o t n k).1[a]? = some t) := by
  induction k generalizing n with
  | zero => simp [copies]
  | succ k ih =>
    by_cases ho : o.own = true
    · obtain ⟨h1, h2, h3⟩ := ih (n + 1)
      simp only [copies, ho, if_true, List.length_cons] at h1 h2 h3 ⊢
      refine ⟨by omega, by omega, fun a ha => ?_⟩
      cases a with
      | zero => simp
      | succ a =>
        have := h3 a (by omega)
        simp only [List.getElem?_cons_succ]
        rw [this.1]
        refine ⟨by simp; omega, fun _ => this.2 trivial⟩
    · obtain ⟨h1, h2, h3⟩ := ih n
      simp only [copies, if_neg ho, List.length_cons] at h1 h2 h3 ⊢
      refine ⟨by omega, h2, fun a ha => ?_⟩
      cases a with
      | zero => exact ⟨by simp, fun h => absurd h ho⟩
      | succ a =>
        have := h3 a (by omega)
        simp only [List.getElem?_cons_succ]
        exact ⟨this.1, fun h => absurd h ho⟩

/-- Objects are only added. -/
theorem step_grows {s s' : State T E} {op : Op T E} (h : step s op = some s') :
    s.trees <+: s'.trees ∧ s.objects <+: s'.objects ∧ s.cells.length ≤ s'.cells.length ∧ s.locals.length ≤ s'.locals.length := by
  have refl1 : s.trees <+: s.trees := List.prefix_refl _
  have refl2 : s.objects <+: s.objects := List.prefix_refl _
  cases op with
  | newParameter t => simp only [step, Option.some.injEq] at h; subst h; exact ⟨refl1, refl2, by simp, by simp⟩
  | newLeaf fn t =>
    simp only [step, Option.some.injEq] at h; subst h
    exact ⟨List.prefix_append _ _, List.prefix_append _ _, by simp, by simp⟩
  | newAdapter fn cell =>
    simp only [step] at h
    split at h
    · simp only [Option.some.injEq] at h; subst h
      exact ⟨List.prefix_append _ _, List.prefix_append _ _, by simp, by simp⟩
    · simp at h
  | newNode js =>
    simp only [step] at h
    split at h
    · simp at h
    · simp only [Option.some.injEq] at h; subst h
      exact ⟨List.prefix_append _ _, refl2, by simp, by simp⟩
  | newPower j k =>
    simp only [step] at h
    split at h
    · simp at h
    · simp only [Option.some.injEq] at h; subst h
      exact ⟨List.prefix_append _ _, refl2, by simp, by simp⟩
    · split at h
      · simp at h
      · split at h
        · simp at h
        · simp only [Option.some.injEq] at h; subst h
          exact ⟨List.prefix_append _ _, List.prefix_append _ _, by simp, by simp⟩
  | setTime j path t =>
    simp only [step] at h
    split at h
    · simp at h
    · split at h
      · simp at h
      · simp only [Option.some.injEq] at h; subst h
        exact ⟨refl1, refl2, by simp [fold_length], by simp⟩
  | setParameter cell t =>
    simp only [step] at h
    split at h
    · simp only [Option.some.injEq] at h; subst h
      exact ⟨refl1, refl2, by simp, by simp⟩
    · simp at h
  | newLocal j =>
    simp only [step] at h
    split at h
    · simp at h
    · simp only [Option.some.injEq] at h; subst h
      exact ⟨refl1, refl2, by simp, by simp⟩
  | bind l path e =>
    simp only [step] at h
    split at h
    · simp at h
    · split at h
      · simp at h
      · simp only [Option.some.injEq] at h; subst h
        exact ⟨refl1, refl2, by simp, by simp⟩
  | unbind l path =>
    simp only [step] at h
    split at h
    · simp at h
    · split at h
      · simp at h
      · simp only [Option.some.injEq] at h; subst h
        exact ⟨refl1, refl2, by simp, by simp⟩

theorem mapM_mem {α β : Type} {f : α → Option β} {l : List α} {r : List β} (h : l.mapM f = some r) :
    ∀ y ∈ r, ∃ x ∈ l, f x = some y := by
  induction l generalizing r with
  | nil =>
    simp only [List.mapM_nil, Option.pure_def, Option.some.injEq] at h
    subst h; simp
  | cons a l ih =>
    simp only [List.mapM_cons, Option.bind_eq_bind, Option.pure_def, Option.bind_eq_some_iff, Option.some.injEq] at h
    obtain ⟨b, hb, bs, hbs, rfl⟩ := h
    intro y hy
    rcases List.mem_cons.1 hy with rfl | hy
    · exact ⟨a, List.mem_cons_self, hb⟩
    · obtain ⟨x, hx, hxy⟩ := ih hbs y hy
      exact ⟨x, List.mem_cons_of_mem _ hx, hxy⟩

theorem leavesOfList_forall {ts : List Tree} {n : Nat} (h : ∀ t ∈ ts, ∀ i ∈ t.leaves, i < n) : ∀ i ∈ leavesOfList ts, i < n := by
  induction ts with
  | nil => simp [leavesOfList]
  | cons t ts ih =>
    intro i hi
    simp only [leavesOfList, List.mem_append] at hi
    rcases hi with hi | hi
    · exact h t List.mem_cons_self i hi
    · exact ih (fun t ht => h t (List.mem_cons_of_mem _ ht)) i hi

theorem step_wf {s s' : State T E} {op : Op T E} (hs : WF s) (h : step s op = some s') : WF s' := by
  obtain ⟨h1, h2⟩ := hs
  cases op with
  | newParameter t =>
    simp only [step, Option.some.injEq] at h; subst h
    exact ⟨fun o ho => by have := h1 o ho; simp; omega, h2⟩
  | newLeaf fn t =>
    simp only [step, Option.some.injEq] at h; subst h
    refine ⟨fun o ho => ?_, fun t ht i hi => ?_⟩
    · rcases List.mem_append.1 ho with ho | ho
      · have := h1 o ho; simp; omega
      · rw [List.mem_singleton] at ho; subst ho; simp
    · rcases List.mem_append.1 ht with ht | ht
      · have := h2 t ht i hi; simp; omega
      · rw [List.mem_singleton] at ht; subst ht
        simp only [Tree.leaves, List.mem_singleton] at hi; simp [hi]
  | newAdapter fn cell =>
    simp only [step] at h
    split at h
    · rename_i hc
      simp only [Option.some.injEq] at h; subst h
      refine ⟨fun o ho => ?_, fun t ht i hi => ?_⟩
      · rcases List.mem_append.1 ho with ho | ho
        · exact h1 o ho
        · rw [List.mem_singleton] at ho; subst ho; exact hc
      · rcases List.mem_append.1 ht with ht | ht
        · have := h2 t ht i hi; simp; omega
        · rw [List.mem_singleton] at ht; subst ht
          simp only [Tree.leaves, List.mem_singleton] at hi; simp [hi]
    · simp at h
  | newNode js =>
    simp only [step] at h
    split at h
    · simp at h
    · rename_i ts hts
      simp only [Option.some.injEq] at h; subst h
      refine ⟨h1, fun t ht i hi => ?_⟩
      rcases List.mem_append.1 ht with ht | ht
      · exact h2 t ht i hi
      · rw [List.mem_singleton] at ht; subst ht
        simp only [Tree.leaves] at hi
        refine leavesOfList_forall (fun t ht => ?_) i hi
        obtain ⟨j, _, hj⟩ := mapM_mem hts t ht
        exact h2 t (List.mem_of_getElem? hj)
  | newPower j k =>
    simp only [step] at h
    split at h
    · simp at h
    · rename_i cs hcs
      simp only [Option.some.injEq] at h; subst h
      refine ⟨h1, fun t ht i hi => ?_⟩
      rcases List.mem_append.1 ht with ht | ht
      · exact h2 t ht i hi
      · rw [List.mem_singleton] at ht; subst ht
        simp only [Tree.leaves] at hi
        refine leavesOfList_forall (fun t ht => ?_) i hi
        rw [List.eq_of_mem_replicate ht]
        exact h2 _ (List.mem_of_getElem? hcs)
    · rename_i i0 hi0
      split at h
      · simp at h
      · rename_i o ho
        split at h
        · simp at h
        · rename_i t ht
          simp only [Option.some.injEq] at h; subst h
          obtain ⟨c1, c2, c3⟩ := copies_spec o t s.cells.length k
          have hoc := h1 o (List.mem_of_getElem? ho)
          refine ⟨fun o' ho' => ?_, fun t' ht' i hi => ?_⟩
          · rcases List.mem_append.1 ho' with ho' | ho'
            · have := h1 o' ho'; simp; omega
            · obtain ⟨a, ha⟩ := List.getElem?_of_mem ho'
              have hak : a < k := by
                have := (List.getElem?_eq_some_iff.1 ha).1; omega
              rw [(c3 a hak).1] at ha
              simp only [Option.some.injEq] at ha
              subst ha
              by_cases hown : o.own = true
              · simp only [hown, if_true] at c2 ⊢; simp [c2]; omega
              · simp only [hown, if_false]
                simp; omega
          · rcases List.mem_append.1 ht' with ht' | ht'
            · have := h2 t' ht' i hi; simp; omega
            · rw [List.mem_singleton] at ht'; subst ht'
              simp only [Tree.leaves] at hi
              refine leavesOfList_forall (fun u hu => ?_) i hi
              obtain ⟨a, ha, rfl⟩ := List.mem_map.1 hu
              intro i hi
              simp only [Tree.leaves, List.mem_singleton] at hi
              rw [List.mem_range] at ha
              simp [c1, hi]; omega
  | setTime j path t =>
    simp only [step] at h
    split at h
    · simp at h
    · split at h
      · simp at h
      · simp only [Option.some.injEq] at h; subst h
        exact ⟨fun o ho => by rw [fold_length]; exact h1 o ho, h2⟩
  | setParameter cell t =>
    simp only [step] at h
    split at h
    · simp only [Option.some.injEq] at h; subst h
      exact ⟨fun o ho => by simpa using h1 o ho, h2⟩
    · simp at h
  | newLocal j =>
    simp only [step] at h
    split at h
    · simp at h
    · simp only [Option.some.injEq] at h; subst h; exact ⟨h1, h2⟩
  | bind l path e =>
    simp only [step] at h
    split at h
    · simp at h
    · split at h
      · simp at h
      · simp only [Option.some.injEq] at h; subst h; exact ⟨h1, h2⟩
  | unbind l path =>
    simp only [step] at h
    split at h
    · simp at h
    · split at h
      · simp at h
      · simp only [Option.some.injEq] at h; subst h; exact ⟨h1, h2⟩

theorem run_append (s : State T E) (a b : List (Op T E)) : run s (a ++ b) = (run s a).bind fun s' => run s' b := by
  induction a generalizing s with
  | nil => rfl
  | cons op a ih =>
    simp only [List.cons_append, run]
    rcases Option.eq_none_or_eq_some (step s op) with h | ⟨s', h⟩
    · simp [h]
    · simp only [h]; exact ih s'

theorem run_wf {s s' : State T E} {ops : List (Op T E)} (hs : WF s) (h : run s ops = some s') : WF s' := by
  induction ops generalizing s with
  | nil => simp only [run, Option.some.injEq] at h; subst h; exact hs
  | cons op ops ih =>
    simp only [run] at h
    rcases Option.eq_none_or_eq_some (step s op) with h' | ⟨s1, h'⟩
    · simp [h'] at h
    · simp only [h'] at h; exact ih (step_wf hs h') h

theorem init_wf : WF (State.init : State T E) := by simp [WF, State.init]

theorem run_grows {s s' : State T E} {ops : List (Op T E)} (h : run s ops = some s') :
    s.trees <+: s'.trees ∧ s.objects <+: s'.objects ∧ s.cells.length ≤ s'.cells.length ∧ s.locals.length ≤ s'.locals.length := by
  induction ops generalizing s with
  | nil => simp only [run, Option.some.injEq] at h; subst h; exact ⟨List.prefix_refl _, List.prefix_refl _, Nat.le_refl _, Nat.le_refl _⟩
  | cons op ops ih =>
    simp only [run] at h
    rcases Option.eq_none_or_eq_some (step s op) with h' | ⟨s1, h'⟩
    · simp [h'] at h
    · simp only [h'] at h
      obtain ⟨a1, a2, a3, a4⟩ := step_grows h'
      obtain ⟨b1, b2, b3, b4⟩ := ih h
      exact ⟨a1.trans b1, a2.trans b2, Nat.le_trans a3 b3, Nat.le_trans a4 b4⟩

theorem prefix_get {α : Type} {l l' : List α} (h : l <+: l') {i : Nat} {a : α} (hi : l[i]? = some a) : l'[i]? = some a := by
  obtain ⟨r, rfl⟩ := h
  rw [List.getElem?_append_left (List.getElem?_eq_some_iff.1 hi).1]; exact hi

theorem prefix_get_back {α : Type} {l l' : List α} (h : l <+: l') {i : Nat} {a : α} (hl : i < l.length) (hi : l'[i]? = some a) :
    l[i]? = some a := by
  obtain ⟨r, rfl⟩ := h
  rwa [List.getElem?_append_left hl] at hi

/-- An operation that was executed sets the same times in the later states. -/
theorem setsTime_later {s s1 s' : State T E} {op : Op T E} (hw : WF s) (h : step s op = some s1) (hg : s.trees <+: s'.trees)
    (ho : s.objects <+: s'.objects) (c : Nat) (t : T) : SetsTime s op c t ↔ SetsTime s' op c t := by
  cases op with
  | setTime j path t' =>
    simp only [step] at h
    rcases Option.eq_none_or_eq_some s.trees[j]? with hj | ⟨tree, hj⟩
    · simp [hj] at h
    · have hj' := prefix_get hg hj
      simp only [SetsTime, IsLeaf, StoredIn]
      constructor
      · rintro ⟨rfl, q, i, ⟨tr, htr, hl⟩, o, hi, hc⟩
        exact ⟨rfl, q, i, ⟨tr, prefix_get hg htr, hl⟩, o, prefix_get ho hi, hc⟩
      · rintro ⟨rfl, q, i, ⟨tr, htr, hl⟩, o, hi, hc⟩
        rw [hj'] at htr
        simp only [Option.some.injEq] at htr
        subst htr
        refine ⟨rfl, q, i, ⟨tree, hj, hl⟩, o, prefix_get_back ho ?_ hi, hc⟩
        exact hw.2 tree (List.mem_of_getElem? hj) i ((mem_leaves _ _).2 ⟨_, hl⟩)
  | setParameter c' t' => simp [SetsTime]
  | _ => simp [SetsTime]

/-- What an operation does to the times. -/
theorem step_cells {s s' : State T E} {op : Op T E} (h : step s op = some s') (c : Nat) (hc : c < s.cells.length) :
    (∀ t, SetsTime s op c t → s'.cells[c]? = some t) ∧ ((∀ t, ¬ SetsTime s op c t) → s'.cells[c]? = s.cells[c]?) := by
  cases op with
  | newParameter t =>
    simp only [step, Option.some.injEq] at h; subst h
    exact ⟨fun t h => h.elim, fun _ => by simp only; rw [List.getElem?_append_left hc]⟩
  | newLeaf fn t =>
    simp only [step, Option.some.injEq] at h; subst h
    exact ⟨fun t h => h.elim, fun _ => by simp only; rw [List.getElem?_append_left hc]⟩
  | newAdapter fn cell =>
    simp only [step] at h
    split at h
    · simp only [Option.some.injEq] at h; subst h
      exact ⟨fun t h => h.elim, fun _ => rfl⟩
    · simp at h
  | newNode js =>
    simp only [step] at h
    split at h
    · simp at h
    · simp only [Option.some.injEq] at h; subst h
      exact ⟨fun t h => h.elim, fun _ => rfl⟩
  | newPower j k =>
    simp only [step] at h
    split at h
    · simp at h
    · simp only [Option.some.injEq] at h; subst h
      exact ⟨fun t h => h.elim, fun _ => rfl⟩
    · split at h
      · simp at h
      · split at h
        · simp at h
        · simp only [Option.some.injEq] at h; subst h
          exact ⟨fun t h => h.elim, fun _ => by simp only; rw [List.getElem?_append_left hc]⟩
  | setTime j path t =>
    simp only [step] at h
    rcases Option.eq_none_or_eq_some s.trees[j]? with hj | ⟨tree, hj⟩
    · simp [hj] at h
    · simp only [hj] at h
      rcases Option.eq_none_or_eq_some (tree.at? path) with hp | ⟨sub, hp⟩
      · simp [hp] at h
      · simp only [hp, Option.some.injEq] at h; subst h
        obtain ⟨f1, f2⟩ := fold_get s.objects t sub.leaves s.cells c hc
        have key : (∃ q i, IsLeaf s j (path ++ q) i ∧ StoredIn s i c) ↔ ∃ i ∈ sub.leaves, ∃ o, s.objects[i]? = some o ∧ o.cell = c := by
          constructor
          · rintro ⟨q, i, ⟨tr, htr, hl⟩, o, ho, hoc⟩
            rw [hj] at htr
            simp only [Option.some.injEq] at htr
            subst htr
            rw [at?_append, hp] at hl
            exact ⟨i, (mem_leaves _ _).2 ⟨q, hl⟩, o, ho, hoc⟩
          · rintro ⟨i, hi, o, ho, hoc⟩
            obtain ⟨q, hq⟩ := (mem_leaves _ _).1 hi
            exact ⟨q, i, ⟨tree, hj, by rw [at?_append, hp]; exact hq⟩, o, ho, hoc⟩
        constructor
        · rintro t' ⟨rfl, hh⟩
          exact f1 (key.1 hh)
        · intro hn
          exact f2 fun hh => hn t ⟨rfl, key.2 hh⟩
  | setParameter cell t =>
    simp only [step] at h
    split at h
    · rename_i hcell
      simp only [Option.some.injEq] at h; subst h
      constructor
      · rintro t' ⟨rfl, rfl⟩
        simp only; rw [List.getElem?_set_self hcell]
      · intro hn
        simp only
        rw [List.getElem?_set_ne]
        rintro rfl
        exact hn t ⟨rfl, rfl⟩
    · simp at h
  | newLocal j =>
    simp only [step] at h
    split at h
    · simp at h
    · simp only [Option.some.injEq] at h; subst h; exact ⟨fun t h => h.elim, fun _ => rfl⟩
  | bind l path e =>
    simp only [step] at h
    split at h
    · simp at h
    · split at h
      · simp at h
      · simp only [Option.some.injEq] at h; subst h; exact ⟨fun t h => h.elim, fun _ => rfl⟩
  | unbind l path =>
    simp only [step] at h
    split at h
    · simp at h
    · split at h
      · simp at h
      · simp only [Option.some.injEq] at h; subst h; exact ⟨fun t h => h.elim, fun _ => rfl⟩

/-- Operations that do not set a time leave it as it is. -/
theorem run_cells {s s' : State T E} {ops : List (Op T E)} (hw : WF s) (h : run s ops = some s') (c : Nat) (hc : c < s.cells.length)
    (hn : ∀ o ∈ ops, ∀ t, ¬ SetsTime s' o c t) : s'.cells[c]? = s.cells[c]? := by
  induction ops generalizing s with
  | nil => simp only [run, Option.some.injEq] at h; subst h; rfl
  | cons op ops ih =>
    simp only [run] at h
    rcases Option.eq_none_or_eq_some (step s op) with h' | ⟨s1, h'⟩
    · simp [h'] at h
    · simp only [h'] at h
      obtain ⟨a1, a2, a3, _⟩ := step_grows h'
      obtain ⟨b1, b2, b3, _⟩ := run_grows h
      rw [ih (step_wf hw h') h (by omega) fun o ho => hn o (List.mem_cons_of_mem _ ho)]
      exact (step_cells h' c hc).2 fun t ht =>
        hn op List.mem_cons_self t ((setsTime_later hw h' (a1.trans b1) (a2.trans b2) c t).1 ht)

/-! Local trees. -/

/-- The object and the element of a leaf. -/
def leafAt (t : LocalTree E) (q : List Nat) : Option (Nat × Option E) :=
  match t.at? q with
  | some (.leaf i e) => some (i, e)
  | _ => none

theorem bindList_get (e : E) (cs : List (LocalTree E)) (c : Nat) : (bindList e cs)[c]? = cs[c]?.map (LocalTree.bind e) := by
  induction cs generalizing c with
  | nil => simp [bindList]
  | cons t ts ih => cases c <;> simp [bindList, ih]

theorem toLocalList_get (cs : List Tree) (c : Nat) : (toLocalList E cs)[c]? = cs[c]?.map (toLocal E) := by
  induction cs generalizing c with
  | nil => simp [toLocalList]
  | cons t ts ih => cases c <;> simp [toLocalList, ih]

theorem leafAt_bind (e : E) (t : LocalTree E) (q : List Nat) : leafAt (t.bind e) q = (leafAt t q).map fun a => (a.1, some e) := by
  induction q generalizing t with
  | nil => cases t <;> rfl
  | cons c q ih =>
    cases t with
    | leaf i el => rfl
    | node cs =>
      have hb : ∀ u : LocalTree E, leafAt u q = match u.at? q with | some (.leaf i e) => some (i, e) | _ => none := fun u => rfl
      simp only [leafAt, LocalTree.bind, LocalTree.at?, bindList_get]
      rcases Option.eq_none_or_eq_some cs[c]? with h | ⟨u, h⟩
      · simp [h]
      · simp only [h, Option.map_some]
        exact ih u

theorem leafAt_toLocal (t : Tree) (q : List Nat) (i : Nat) (h : t.at? q = some (.leaf i)) : leafAt (toLocal E t) q = some (i, none) := by
  induction q generalizing t with
  | nil => simp only [Tree.at?, Option.some.injEq] at h; subst h; rfl
  | cons c q ih =>
    cases t with
    | leaf j => simp [Tree.at?] at h
    | node cs =>
      simp only [Tree.at?] at h
      simp only [leafAt, toLocal, LocalTree.at?, toLocalList_get]
      rcases Option.eq_none_or_eq_some cs[c]? with hc | ⟨u, hc⟩
      · simp [hc] at h
      · simp only [hc, Option.map_some] at h ⊢
        exact ih u h

mutual

theorem unbind_eq : ∀ t : LocalTree E, t.unbind = t
  | .leaf i e => rfl
  | .node cs => by simp only [LocalTree.unbind]; rw [unbindList_eq cs]

theorem unbindList_eq : ∀ ts : List (LocalTree E), unbindList ts = ts
  | [] => rfl
  | t :: ts => by simp only [unbindList]; rw [unbind_eq t, unbindList_eq ts]

end

theorem modify_unbind (t t' : LocalTree E) (p : List Nat) (h : t.modify LocalTree.unbind p = some t') : t' = t := by
  induction p generalizing t t' with
  | nil => simp only [LocalTree.modify, Option.some.injEq] at h; rw [← h, unbind_eq]
  | cons c p ih =>
    cases t with
    | leaf i e => simp [LocalTree.modify] at h
    | node cs =>
      simp only [LocalTree.modify] at h
      rcases Option.eq_none_or_eq_some cs[c]? with hc | ⟨u, hc⟩
      · simp [hc] at h
      · simp only [hc] at h
        rcases Option.eq_none_or_eq_some (u.modify LocalTree.unbind p) with hu | ⟨u', hu⟩
        · simp [hu] at h
        · simp only [hu, Option.some.injEq] at h
          rw [← h, ih u u' hu]
          congr 1
          obtain ⟨hl, he⟩ := List.getElem?_eq_some_iff.1 hc
          rw [← he, List.set_getElem_self]

theorem modify_bind (e : E) (t t' : LocalTree E) (p q : List Nat) (h : t.modify (LocalTree.bind e) p = some t') :
    (p <+: q → leafAt t' q = (leafAt t q).map fun a => (a.1, some e)) ∧ (¬ p <+: q → leafAt t' q = leafAt t q) := by
  induction p generalizing t t' q with
  | nil =>
    simp only [LocalTree.modify, Option.some.injEq] at h
    subst h
    exact ⟨fun _ => leafAt_bind e t q, fun hn => absurd (List.nil_prefix) hn⟩
  | cons c p ih =>
    cases t with
    | leaf i el => simp [LocalTree.modify] at h
    | node cs =>
      simp only [LocalTree.modify] at h
      rcases Option.eq_none_or_eq_some cs[c]? with hc | ⟨u, hc⟩
      · simp [hc] at h
      · simp only [hc] at h
        rcases Option.eq_none_or_eq_some (u.modify (LocalTree.bind e) p) with hu | ⟨u', hu⟩
        · simp [hu] at h
        · simp only [hu, Option.some.injEq] at h
          subst h
          cases q with
          | nil => exact ⟨fun hp => by simp at hp, fun _ => rfl⟩
          | cons d q =>
            by_cases hd : d = c
            · subst hd
              have hl := (List.getElem?_eq_some_iff.1 hc).1
              have e1 : leafAt (.node (cs.set d u')) (d :: q) = leafAt u' q := by
                simp only [leafAt, LocalTree.at?, List.getElem?_set_self hl]
              have e2 : leafAt (.node cs) (d :: q) = leafAt u q := by
                simp only [leafAt, LocalTree.at?, hc]
              rw [e1, e2]
              simp only [List.cons_prefix_cons, true_and]
              exact ih u u' q hu
            · have e1 : leafAt (.node (cs.set c u')) (d :: q) = leafAt (.node cs) (d :: q) := by
                simp only [leafAt, LocalTree.at?]
                rw [List.getElem?_set_ne (Ne.symm hd)]
              rw [e1]
              refine ⟨fun hp => ?_, fun _ => rfl⟩
              rw [List.cons_prefix_cons] at hp
              exact absurd hp.1.symm hd

/-- The object and the element of a leaf of a local tree. -/
def localAt (s : State T E) (l : Nat) (q : List Nat) : Option (Nat × Option E) := s.locals[l]?.bind fun t => leafAt t q

theorem step_local {s s' : State T E} {op : Op T E} (h : step s op = some s') (l : Nat) (hl : l < s.locals.length) (q : List Nat) :
    (∀ e, Binds op l q e → localAt s' l q = (localAt s l q).map fun a => (a.1, some e)) ∧
    ((∀ e, ¬ Binds op l q e) → localAt s' l q = localAt s l q) := by
  cases op with
  | newParameter t => simp only [step, Option.some.injEq] at h; subst h; exact ⟨fun e h => h.elim, fun _ => rfl⟩
  | newLeaf fn t => simp only [step, Option.some.injEq] at h; subst h; exact ⟨fun e h => h.elim, fun _ => rfl⟩
  | newAdapter fn cell =>
    simp only [step] at h
    split at h
    · simp only [Option.some.injEq] at h; subst h; exact ⟨fun t h => h.elim, fun _ => rfl⟩
    · simp at h
  | newNode js =>
    simp only [step] at h
    split at h
    · simp at h
    · simp only [Option.some.injEq] at h; subst h; exact ⟨fun t h => h.elim, fun _ => rfl⟩
  | newPower j k =>
    simp only [step] at h
    split at h
    · simp at h
    · simp only [Option.some.injEq] at h; subst h; exact ⟨fun t h => h.elim, fun _ => rfl⟩
    · split at h
      · simp at h
      · split at h
        · simp at h
        · simp only [Option.some.injEq] at h; subst h; exact ⟨fun t h => h.elim, fun _ => rfl⟩
  | setTime j path t =>
    simp only [step] at h
    split at h
    · simp at h
    · split at h
      · simp at h
      · simp only [Option.some.injEq] at h; subst h; exact ⟨fun t h => h.elim, fun _ => rfl⟩
  | setParameter cell t =>
    simp only [step] at h
    split at h
    · simp only [Option.some.injEq] at h; subst h; exact ⟨fun t h => h.elim, fun _ => rfl⟩
    · simp at h
  | newLocal j =>
    simp only [step] at h
    split at h
    · simp at h
    · simp only [Option.some.injEq] at h; subst h
      exact ⟨fun t h => h.elim, fun _ => by simp only [localAt]; rw [List.getElem?_append_left hl]⟩
  | bind l' path e =>
    simp only [step] at h
    rcases Option.eq_none_or_eq_some s.locals[l']? with hj | ⟨tree, hj⟩
    · simp [hj] at h
    · simp only [hj] at h
      rcases Option.eq_none_or_eq_some (tree.modify (LocalTree.bind e) path) with hp | ⟨tree', hp⟩
      · simp [hp] at h
      · simp only [hp, Option.some.injEq] at h; subst h
        by_cases hll : l' = l
        · subst hll
          obtain ⟨m1, m2⟩ := modify_bind e tree tree' path q hp
          simp only [localAt, List.getElem?_set_self hl, hj, Option.bind_some]
          constructor
          · rintro e' ⟨_, rfl, r, rfl⟩
            exact m1 (List.prefix_append _ _)
          · intro hn
            exact m2 fun hpre => hn e ⟨rfl, rfl, by obtain ⟨r, hr⟩ := hpre; exact ⟨r, hr.symm⟩⟩
        · constructor
          · rintro e' ⟨h1, _⟩
            exact absurd h1 hll
          · intro _
            simp only [localAt]
            rw [List.getElem?_set_ne hll]
  | unbind l' path =>
    simp only [step] at h
    rcases Option.eq_none_or_eq_some s.locals[l']? with hj | ⟨tree, hj⟩
    · simp [hj] at h
    · simp only [hj] at h
      rcases Option.eq_none_or_eq_some (tree.modify LocalTree.unbind path) with hp | ⟨tree', hp⟩
      · simp [hp] at h
      · simp only [hp, Option.some.injEq] at h; subst h
        refine ⟨fun e h => h.elim, fun _ => ?_⟩
        have := modify_unbind _ _ _ hp
        subst this
        obtain ⟨hl', he⟩ := List.getElem?_eq_some_iff.1 hj
        simp only [localAt]
        rw [← he, List.set_getElem_self]

theorem run_local {s s' : State T E} {ops : List (Op T E)} (h : run s ops = some s') (l : Nat) (hl : l < s.locals.length) (q : List Nat)
    (hn : ∀ o ∈ ops, ∀ e, ¬ Binds o l q e) : localAt s' l q = localAt s l q := by
  induction ops generalizing s with
  | nil => simp only [run, Option.some.injEq] at h; subst h; rfl
  | cons op ops ih =>
    simp only [run] at h
    rcases Option.eq_none_or_eq_some (step s op) with h' | ⟨s1, h'⟩
    · simp [h'] at h
    · simp only [h'] at h
      have := (step_grows h').2.2.2
      rw [ih h (by omega) fun o ho => hn o (List.mem_cons_of_mem _ ho)]
      exact (step_local h' l hl q).2 (hn op List.mem_cons_self)

/-- The object of a leaf never changes. -/
theorem run_local_object {s s' : State T E} {ops : List (Op T E)} (h : run s ops = some s') (l : Nat) (hl : l < s.locals.length) (q : List Nat) :
    (localAt s' l q).map Prod.fst = (localAt s l q).map Prod.fst := by
  induction ops generalizing s with
  | nil => simp only [run, Option.some.injEq] at h; subst h; rfl
  | cons op ops ih =>
    simp only [run] at h
    rcases Option.eq_none_or_eq_some (step s op) with h' | ⟨s1, h'⟩
    · simp [h'] at h
    · simp only [h'] at h
      have := (step_grows h').2.2.2
      rw [ih h (by omega)]
      by_cases hb : ∃ e, Binds op l q e
      · obtain ⟨e, he⟩ := hb
        rw [(step_local h' l hl q).1 e he, Option.map_map]; rfl
      · rw [(step_local h' l hl q).2 fun e he => hb ⟨e, he⟩]

theorem evalLocal_eq {X R : Type} (value : Nat → T → E → X → R) (s : State T E) (l : Nat) (q : List Nat) (x : X) :
    evalLocal value s l q x = match localAt s l q with | some (i, some e) => evalObject value s i e x | _ => none := by
  unfold evalLocal localAt leafAt
  rcases Option.eq_none_or_eq_some s.locals[l]? with h | ⟨t, h⟩
  · simp [h]
  · simp only [h, Option.bind_some]
    rcases Option.eq_none_or_eq_some (t.at? q) with h' | ⟨u, h'⟩
    · simp [h']
    · simp only [h']
      cases u with
      | node cs => rfl
      | leaf i e => cases e <;> rfl

end Verif.FunctionTree
