import Verif.Spec.SpaceLifecycle
import Mathlib.Data.List.Induction
import Mathlib.Data.List.Basic

/-!
# Proofs about the life cycle of grid function spaces
-/

set_option linter.unusedSectionVars false

namespace Verif.SpaceLifecycle

variable {G : Type} (dofs : G → Nat → Nat)

theorem assign_same {A : Type} (f : Nat → A) (i : Nat) (a : A) : assign f i a i = a := by
  simp [assign]

theorem assign_ne {A : Type} (f : Nat → A) {i j : Nat} (a : A) (h : j ≠ i) :
    assign f i a j = f j := by
  simp [assign, h]

/-! ## Trees -/

mutual

theorem subspaces_flag : ∀ (s : Space) (b b' : Bool) (t : Space) (f : Bool),
    (t, f) ∈ subspaces b s → ∃ f', (t, f') ∈ subspaces b' s
  | .leaf l, b, b', t, f, h => by
    simp only [subspaces, List.mem_singleton, Prod.mk.injEq] at h ⊢
    exact ⟨b', h.1, rfl⟩
  | .node i c cs, b, b', t, f, h => by
    simp only [subspaces, List.mem_append, List.mem_singleton, Prod.mk.injEq] at h ⊢
    rcases h with h | h
    · obtain ⟨f', h'⟩ := subspacesList_flag cs (b || c) (b' || c) t f h
      exact ⟨f', Or.inl h'⟩
    · exact ⟨b', Or.inr ⟨h.1, rfl⟩⟩

theorem subspacesList_flag : ∀ (ss : List Space) (b b' : Bool) (t : Space) (f : Bool),
    (t, f) ∈ subspacesList b ss → ∃ f', (t, f') ∈ subspacesList b' ss
  | [], _, _, _, _, h => by simp [subspacesList] at h
  | s :: ss, b, b', t, f, h => by
    simp only [subspacesList, List.mem_append] at h ⊢
    rcases h with h | h
    · obtain ⟨f', h'⟩ := subspaces_flag s b b' t f h
      exact ⟨f', Or.inl h'⟩
    · obtain ⟨f', h'⟩ := subspacesList_flag ss b b' t f h
      exact ⟨f', Or.inr h'⟩

end

mutual

theorem localIds_eq : ∀ s : Space,
    localIds s = (subspaces true s).map fun tb => (tb.1.id, none)
  | .leaf l => rfl
  | .node i b cs => by
    simp only [localIds, subspaces, Bool.true_or, List.map_append, List.map_cons, List.map_nil]
    rw [localIdsList_eq cs]
    rfl

theorem localIdsList_eq : ∀ ss : List Space,
    localIdsList ss = (subspacesList true ss).map fun tb => (tb.1.id, none)
  | [] => rfl
  | s :: ss => by
    simp only [localIdsList, subspacesList, List.map_append]
    rw [localIds_eq s, localIdsList_eq ss]

end

mutual

theorem subspaces_true : ∀ (s : Space) (t : Space) (f : Bool), (t, f) ∈ subspaces true s → f = true
  | .leaf l, t, f, h => by
    simp only [subspaces, List.mem_singleton, Prod.mk.injEq] at h
    exact h.2
  | .node i b cs, t, f, h => by
    simp only [subspaces, Bool.true_or, List.mem_append, List.mem_singleton, Prod.mk.injEq] at h
    rcases h with h | h
    · exact subspacesList_true cs t f h
    · exact h.2

theorem subspacesList_true : ∀ (ss : List Space) (t : Space) (f : Bool),
    (t, f) ∈ subspacesList true ss → f = true
  | [], _, _, h => by simp [subspacesList] at h
  | s :: ss, t, f, h => by
    simp only [subspacesList, List.mem_append] at h
    rcases h with h | h
    · exact subspaces_true s t f h
    · exact subspacesList_true ss t f h

end

theorem localIdsList_map (cs : List Space) (F : Space → Nat) :
    localIdsList cs = (subspacesList true cs).map
      fun tb => (tb.1.id, if tb.2 then none else some (F tb.1)) := by
  rw [localIdsList_eq]
  refine List.map_congr_left ?_
  rintro ⟨t, f⟩ h
  rw [subspacesList_true cs t f h]
  rfl

theorem self_mem (b : Bool) (s : Space) : (s, b) ∈ subspaces b s := by
  cases s <;> simp [subspaces]

/-! ## The update of an ordering -/

theorem update_false_seen {g : G} {e : Es G} (c : Finset Nat) (h : e.seen = some g) :
    ((e.addCodims c).update false g).seen = some g := by
  unfold Es.update
  split
  · exact h
  · rfl

theorem assign_seen {g : G} {es : Nat → Es G} (k : Nat) (c : Finset Nat)
    (h : (es k).seen = some g) (j : Nat) (hj : (es j).seen = some g) :
    (assign es k (((es k).addCodims c).update false g) j).seen = some g := by
  by_cases hjk : j = k
  · subst hjk; rw [assign_same]; exact update_false_seen c h
  · rw [assign_ne _ _ hjk]; exact hj

theorem leafSize_seen {g : G} {es : Nat → Es G} {l : Leaf} (h : (es l.es).seen = some g) :
    leafSize dofs es l = dofs g l.fem := by
  unfold leafSize; rw [h]

/-- The dimension of a list of spaces. -/
def dimensionList (g : G) (ss : List Space) : Nat :=
  ((leavesList ss).map fun l => dofs g l.fem).sum

/-- What is written for a tree. -/
def written (g : G) (tb : Space × Bool) : Nat × Option Nat :=
  (tb.1.id, if tb.2 then none else some (dimension dofs g tb.1))

mutual

theorem updateOrdering_spec (g : G) : ∀ (s : Space) (es : Nat → Es G),
    (∀ l ∈ s.leaves, (es l.es).seen = some g) →
    (∀ k, (es k).seen = some g → ((updateOrdering dofs g s es).1 k).seen = some g) ∧
    (updateOrdering dofs g s es).2.1 = dimension dofs g s ∧
    (updateOrdering dofs g s es).2.2 = (subspaces false s).map (written dofs g)
  | .leaf l, es, h => by
    have hl : (es l.es).seen = some g := h l (by simp [Space.leaves])
    simp only [updateOrdering]
    have h1 : leafSize dofs (assign es l.es (((es l.es).addCodims (usedCodims [l])).update false g)) l
        = dofs g l.fem := leafSize_seen dofs (assign_seen l.es _ hl l.es hl)
    refine ⟨fun k hk => assign_seen l.es _ hl k hk, ?_, ?_⟩
    · rw [h1]; simp [dimension, Space.leaves]
    · rw [h1]; simp [subspaces, written, dimension, Space.leaves, Space.id]
  | .node i true cs, es, h => by
    simp only [Space.leaves] at h
    have hsub : (subspaces false (.node i true cs)).map (written dofs g)
        = localIdsList cs ++ [(i, some (dimensionList dofs g cs))] := by
      rw [localIdsList_map cs (dimension dofs g)]
      simp [subspaces, written, Space.id, dimension, dimensionList, Space.leaves]
    rw [hsub]
    simp only [updateOrdering]
    cases hls : leavesList cs with
    | nil =>
      refine ⟨fun k hk => hk, ?_, ?_⟩
      · simp [dimension, Space.leaves, hls]
      · simp [dimensionList, hls]
    | cons l ls =>
      rw [hls] at h
      have hl : (es l.es).seen = some g := h l (by simp)
      have hmap : ((l :: ls).map (leafSize dofs
            (assign es l.es (((es l.es).addCodims (usedCodims (l :: ls))).update false g)))).sum
          = dimensionList dofs g cs := by
        unfold dimensionList
        rw [hls]
        congr 1
        refine List.map_congr_left fun l' hl' => ?_
        exact leafSize_seen dofs (assign_seen l.es _ hl l'.es (h l' hl'))
      refine ⟨fun k hk => assign_seen l.es _ hl k hk, ?_, ?_⟩
      · dsimp only; rw [hmap]; rfl
      · dsimp only; rw [hmap]
  | .node i false cs, es, h => by
    obtain ⟨h1, h2, h3⟩ := updateChildren_spec g cs es (by simpa [Space.leaves] using h)
    simp only [updateOrdering]
    refine ⟨h1, ?_, ?_⟩
    · rw [h2]; rfl
    · rw [h3, h2]
      simp [subspaces, written, dimension, dimensionList, Space.leaves, Space.id]

theorem updateChildren_spec (g : G) : ∀ (ss : List Space) (es : Nat → Es G),
    (∀ l ∈ leavesList ss, (es l.es).seen = some g) →
    (∀ k, (es k).seen = some g → ((updateChildren dofs g ss es).1 k).seen = some g) ∧
    (updateChildren dofs g ss es).2.1 = dimensionList dofs g ss ∧
    (updateChildren dofs g ss es).2.2 = (subspacesList false ss).map (written dofs g)
  | [], es, h => by simp [updateChildren, dimensionList, leavesList, subspacesList]
  | s :: ss, es, h => by
    simp only [leavesList, List.mem_append] at h
    obtain ⟨h1, h2, h3⟩ := updateOrdering_spec g s es fun l hl => h l (Or.inl hl)
    obtain ⟨k1, k2, k3⟩ := updateChildren_spec g ss (updateOrdering dofs g s es).1
      fun l hl => h1 _ (h l (Or.inr hl))
    simp only [updateChildren]
    refine ⟨fun k hk => k1 k (h1 k hk), ?_, ?_⟩
    · rw [h2, k2]
      simp [dimension, dimensionList, leavesList]
    · rw [h3, k3]
      simp [subspacesList]

end

mutual

/-- The nodes which are written do not depend on the entity sets. -/
theorem updateOrdering_ids (g : G) : ∀ (s : Space) (es : Nat → Es G),
    (updateOrdering dofs g s es).2.2.map Prod.fst = (subspaces false s).map fun tb => tb.1.id
  | .leaf l, es => rfl
  | .node i true cs, es => by
    have hl : (localIdsList cs).map Prod.fst = (subspacesList true cs).map fun tb => tb.1.id := by
      rw [localIdsList_eq, List.map_map]; rfl
    simp only [updateOrdering, subspaces, Bool.or_true, List.map_append]
    cases leavesList cs with
    | nil => simp only [List.map_append]; rw [hl]; rfl
    | cons l ls => simp only [List.map_append]; rw [hl]; rfl
  | .node i false cs, es => by
    simp only [updateOrdering, subspaces, Bool.or_false, List.map_append]
    rw [updateChildren_ids g cs es]
    rfl

theorem updateChildren_ids (g : G) : ∀ (ss : List Space) (es : Nat → Es G),
    (updateChildren dofs g ss es).2.2.map Prod.fst = (subspacesList false ss).map fun tb => tb.1.id
  | [], es => rfl
  | s :: ss, es => by
    simp only [updateChildren, subspacesList, List.map_append]
    rw [updateOrdering_ids g s es, updateChildren_ids g ss]

end

/-! ## Writing the data -/

theorem writes_frame (n m : Nat) (out : List (Nat × Option Nat)) (data : Nat → Data) (j : Nat) :
    (out.foldl (writeData n m) data j).ordering = (data j).ordering ∧
    (out.foldl (writeData n m) data j).isRoot = (data j).isRoot ∧
    ((data j).initialized = true → (out.foldl (writeData n m) data j).initialized = true) ∧
    (j ∉ out.map Prod.fst → out.foldl (writeData n m) data j = data j) := by
  induction out generalizing data with
  | nil => exact ⟨rfl, rfl, fun h => h, fun _ => rfl⟩
  | cons o out ih =>
    obtain ⟨h1, h2, h3, h4⟩ := ih (writeData n m data o)
    rw [List.foldl_cons]
    by_cases hj : j = o.1
    · subst hj
      refine ⟨?_, ?_, ?_, ?_⟩
      · rw [h1]; simp [writeData, assign]
      · rw [h2]; simp [writeData, assign]
      · intro _; exact h3 (by simp [writeData, assign])
      · intro hn; simp at hn
    · have he : writeData n m data o j = data j := assign_ne _ _ hj
      refine ⟨by rw [h1, he], by rw [h2, he], ?_, ?_⟩
      · intro hi; exact h3 (by rw [he]; exact hi)
      · intro hn
        rw [h4 (by simp only [List.map_cons, List.mem_cons, not_or] at hn; exact hn.2), he]

theorem writes_in (n m : Nat) (out : List (Nat × Option Nat)) (data : Nat → Data) (j : Nat)
    (hj : j ∈ out.map Prod.fst) :
    (out.foldl (writeData n m) data j).initialized = true ∧
    (out.foldl (writeData n m) data j).globalSize = n ∧
    (out.foldl (writeData n m) data j).maxLocalSize = m ∧
    (∀ k, (∀ o ∈ out, o.1 = j → o.2 = some k) →
      (out.foldl (writeData n m) data j).size = k ∧
      (out.foldl (writeData n m) data j).sizeAvailable = true) ∧
    ((∀ o ∈ out, o.1 = j → o.2 = none) →
      (out.foldl (writeData n m) data j).sizeAvailable = false) := by
  induction out using List.reverseRecOn with
  | nil => simp at hj
  | append_singleton out o ih =>
    rw [List.foldl_append, List.foldl_cons, List.foldl_nil]
    by_cases h : j = o.1
    · subst h
      refine ⟨by simp [writeData, assign], by simp [writeData, assign], by simp [writeData, assign],
        ?_, ?_⟩
      · intro k hk
        have := hk o (by simp) rfl
        simp [writeData, assign, this]
      · intro hk
        have := hk o (by simp) rfl
        simp [writeData, assign, this]
    · have he : writeData n m (out.foldl (writeData n m) data) o j
          = out.foldl (writeData n m) data j := assign_ne _ _ h
      rw [he]
      have hj' : j ∈ out.map Prod.fst := by
        simp only [List.map_append, List.map_cons, List.map_nil, List.mem_append,
          List.mem_singleton] at hj
        rcases hj with hj | hj
        · exact hj
        · exact absurd hj h
      obtain ⟨a, b, c, d, e⟩ := ih hj'
      refine ⟨a, b, c, ?_, ?_⟩
      · intro k hk; exact d k fun o' ho' => hk o' (by simp [ho'])
      · intro hk; exact e fun o' ho' => hk o' (by simp [ho'])

/-! ## Entity sets -/

theorem update_true_seen (g : G) (e : Es G) : (e.update true g).seen = some g := by
  simp [Es.update]

theorem updateLeafSets_spec (g : G) : ∀ (ls : List Leaf) (tracked : Nat) (es : Nat → Es G),
    (es tracked).seen = some g →
    (∀ k, (es k).seen = some g → (updateLeafSets true g tracked es ls k).seen = some g) ∧
    (∀ l ∈ ls, (updateLeafSets true g tracked es ls l.es).seen = some g)
  | [], tracked, es, h => ⟨fun k hk => hk, by simp⟩
  | l :: ls, tracked, es, h => by
    unfold updateLeafSets
    by_cases ht : tracked ≠ l.es
    · rw [if_pos ht]
      have hs : (assign es l.es ((es l.es).update true g) l.es).seen = some g := by
        rw [assign_same]; exact update_true_seen g _
      obtain ⟨h1, h2⟩ := updateLeafSets_spec g ls l.es _ hs
      refine ⟨?_, ?_⟩
      · intro k hk
        refine h1 k ?_
        by_cases hkl : k = l.es
        · rw [hkl]; exact hs
        · rw [assign_ne _ _ hkl]; exact hk
      · intro l' hl'
        rcases List.mem_cons.1 hl' with rfl | hl'
        · exact h1 _ hs
        · exact h2 l' hl'
    · rw [if_neg ht]
      obtain ⟨h1, h2⟩ := updateLeafSets_spec g ls tracked es h
      refine ⟨h1, ?_⟩
      intro l' hl'
      rcases List.mem_cons.1 hl' with rfl | hl'
      · refine h1 _ ?_
        rw [← not_not.1 ht]; exact h
      · exact h2 l' hl'

/-- After a forced update all entity sets of the leaves know the grid. -/
theorem updateSets_spec (g : G) (es : Nat → Es G) (s : Space) :
    ∀ l ∈ s.leaves, (updateSets true g es s l.es).seen = some g := by
  unfold updateSets
  cases h : s.leaves with
  | nil => simp
  | cons l ls =>
    dsimp only
    exact (updateLeafSets_spec g (l :: ls) l.es _
      (by rw [assign_same]; exact update_true_seen g _)).2

/-! ## Invariants -/

/-- Objects and their identities. -/
def Coherent (st : State G) : Prop :=
  ∀ i s, st.spaces[i]? = some s →
    s.id = i ∧ ∀ t b, (t, b) ∈ subspaces false s → st.spaces[t.id]? = some t

/-- A space has the ordering made for it. -/
def OwnOrdering (st : State G) : Prop :=
  ∀ i o, (st.data i).ordering = some o → st.spaces[i]? = some o

theorem updateWith_data (st : State G) (i : Nat) (o : Space) (j : Nat) :
    (((updateWith dofs st i o).1.data j).ordering = (st.data j).ordering) ∧
    (((updateWith dofs st i o).1.data j).isRoot = (st.data j).isRoot) ∧
    ((st.data j).initialized = true → ((updateWith dofs st i o).1.data j).initialized = true) ∧
    (updateWith dofs st i o).1.spaces = st.spaces := by
  unfold updateWith
  split
  · exact ⟨rfl, rfl, fun h => h, rfl⟩
  · obtain ⟨a, b, c, _⟩ := writes_frame (updateOrdering dofs st.grid o st.es).2.1 (maxLocalSize o)
      (updateOrdering dofs st.grid o st.es).2.2 st.data j
    exact ⟨a, b, c, rfl⟩

theorem createOrdering_data (st : State G) (i : Nat) (s : Space) (j : Nat) :
    (((createOrdering st i s).1.data j).isRoot = (st.data j).isRoot) ∧
    (((createOrdering st i s).1.data j).initialized = (st.data j).initialized) ∧
    (createOrdering st i s).1.spaces = st.spaces ∧
    (((createOrdering st i s).1.data j).ordering = (st.data j).ordering ∨
      j = i ∧ ((createOrdering st i s).1.data j).ordering = some s) := by
  unfold createOrdering
  split
  · by_cases h : j = i
    · subst h
      simp [assign]
    · simp [assign, h]
  · simp

/-- What update and ordering have in common: they leave the objects, and their
place in trees, as they are. -/
def Mild (st st' : State G) : Prop :=
  st'.spaces = st.spaces ∧
  ∀ j, (st'.data j).isRoot = (st.data j).isRoot ∧
    ((st.data j).initialized = true → (st'.data j).initialized = true) ∧
    ((st'.data j).ordering = (st.data j).ordering ∨
      ∃ s, st.spaces[j]? = some s ∧ (st'.data j).ordering = some s)

theorem mild_refl (st : State G) : Mild st st :=
  ⟨rfl, fun _ => ⟨rfl, fun h => h, Or.inl rfl⟩⟩

theorem mild_trans {a b c : State G} (h1 : Mild a b) (h2 : Mild b c) : Mild a c := by
  refine ⟨h2.1.trans h1.1, fun j => ?_⟩
  obtain ⟨a1, a2, a3⟩ := h1.2 j
  obtain ⟨b1, b2, b3⟩ := h2.2 j
  refine ⟨b1.trans a1, fun h => b2 (a2 h), ?_⟩
  rcases b3 with b3 | ⟨s, b3, b4⟩
  · rcases a3 with a3 | ⟨s, a3, a4⟩
    · exact Or.inl (b3.trans a3)
    · exact Or.inr ⟨s, a3, b3.trans a4⟩
  · exact Or.inr ⟨s, by rw [← h1.1]; exact b3, b4⟩

theorem mild_updateWith (st : State G) (i : Nat) (o : Space) :
    Mild st (updateWith dofs st i o).1 := by
  refine ⟨(updateWith_data dofs st i o 0).2.2.2, fun j => ?_⟩
  obtain ⟨a, b, c, _⟩ := updateWith_data dofs st i o j
  exact ⟨b, c, Or.inl a⟩

theorem mild_createOrdering (st : State G) (i : Nat) (s : Space) (h : st.spaces[i]? = some s) :
    Mild st (createOrdering st i s).1 := by
  refine ⟨(createOrdering_data st i s 0).2.2.1, fun j => ?_⟩
  obtain ⟨a, b, _, d⟩ := createOrdering_data st i s j
  refine ⟨a, fun h => by rw [b]; exact h, ?_⟩
  rcases d with d | ⟨rfl, d⟩
  · exact Or.inl d
  · exact Or.inr ⟨s, h, d⟩

theorem mild_update (st : State G) (i : Nat) (force : Bool) :
    Mild st (update dofs st i force).1 := by
  unfold update
  cases hs : st.spaces[i]? with
  | none => exact mild_refl st
  | some s =>
    dsimp only
    have h0 : Mild st { st with es := updateSets force st.grid st.es s } := mild_refl st
    cases ho : (st.data i).ordering with
    | some o => exact mild_trans h0 (mild_updateWith dofs _ i o)
    | none =>
      dsimp only
      have h1 := mild_createOrdering { st with es := updateSets force st.grid st.es s } i s hs
      cases hc : createOrdering { st with es := updateSets force st.grid st.es s } i s with
      | mk st' r =>
        rw [hc] at h1
        cases r with
        | ok => exact mild_trans h0 (mild_trans h1 (mild_updateWith dofs _ i s))
        | hierarchyError => exact mild_trans h0 h1
        | unknown => exact mild_trans h0 h1

theorem mild_ordering (st : State G) (i : Nat) : Mild st (ordering dofs st i).1 := by
  unfold ordering
  cases hs : st.spaces[i]? with
  | none => exact mild_refl st
  | some s =>
    dsimp only
    split
    · exact mild_refl st
    · cases ho : (st.data i).ordering with
      | some o => exact mild_refl st
      | none =>
        dsimp only
        have h1 := mild_createOrdering st i s hs
        cases hc : createOrdering st i s with
        | mk st' r =>
          rw [hc] at h1
          cases r with
          | ok => exact mild_trans h1 (mild_updateWith dofs _ i s)
          | hierarchyError => exact h1
          | unknown => exact h1

theorem mild_coherent {st st' : State G} (h : Mild st st') (hc : Coherent st) : Coherent st' := by
  intro i s hi
  rw [h.1] at hi ⊢
  exact hc i s hi

theorem mild_own {st st' : State G} (h : Mild st st') (hc : OwnOrdering st) : OwnOrdering st' := by
  intro i o hi
  rw [h.1]
  rcases (h.2 i).2.2 with h' | ⟨s, h1, h2⟩
  · exact hc i o (by rw [← h']; exact hi)
  · rw [h2] at hi; rw [h1]; exact hi

theorem resetRoot_data (cs : List Nat) (data : Nat → Data) (j : Nat) :
    ((resetRoot data cs).1 j).ordering = (data j).ordering ∧
    ((resetRoot data cs).1 j).initialized = (data j).initialized ∧
    ((resetRoot data cs).1 j).size = (data j).size ∧
    ((resetRoot data cs).1 j).globalSize = (data j).globalSize ∧
    ((resetRoot data cs).1 j).maxLocalSize = (data j).maxLocalSize ∧
    ((resetRoot data cs).1 j).sizeAvailable = (data j).sizeAvailable ∧
    ((data j).initialized = true → ((resetRoot data cs).1 j).isRoot = (data j).isRoot) := by
  induction cs generalizing data with
  | nil => exact ⟨rfl, rfl, rfl, rfl, rfl, rfl, fun _ => rfl⟩
  | cons c cs ih =>
    unfold resetRoot
    split
    · exact ⟨rfl, rfl, rfl, rfl, rfl, rfl, fun _ => rfl⟩
    · rename_i hc
      obtain ⟨h1, h2, h3, h4, h5, h6, h7⟩ := ih (assign data c { data c with isRoot := false })
      by_cases hj : j = c
      · subst hj
        simp only [assign_same] at h1 h2 h3 h4 h5 h6 h7
        refine ⟨h1, h2, h3, h4, h5, h6, ?_⟩
        intro hi
        rw [h7 hi]
        simp only [hi, Bool.true_and, Bool.not_eq_true] at hc
        exact hc.symm
      · rw [assign_ne _ _ hj] at h1 h2 h3 h4 h5 h6 h7
        exact ⟨h1, h2, h3, h4, h5, h6, h7⟩

theorem lookup_mem {spaces : List Space} : ∀ {is : List Nat} {cs : List Space},
    lookup spaces is = some cs → ∀ c ∈ cs, ∃ i ∈ is, spaces[i]? = some c
  | [], cs, h => by simp [lookup] at h; subst h; simp
  | i :: is, cs, h => by
    unfold lookup at h
    cases hs : spaces[i]? with
    | none => rw [hs] at h; simp at h
    | some s =>
      cases hl : lookup spaces is with
      | none => rw [hs, hl] at h; simp at h
      | some ss =>
        rw [hs, hl] at h
        simp only [Option.some.injEq] at h
        subst h
        intro c hc
        rcases List.mem_cons.1 hc with rfl | hc
        · exact ⟨i, by simp, hs⟩
        · obtain ⟨i', hi', h'⟩ := lookup_mem hl c hc
          exact ⟨i', List.mem_cons_of_mem _ hi', h'⟩

theorem subspacesList_mem {b : Bool} : ∀ {ss : List Space} {t : Space} {f : Bool},
    (t, f) ∈ subspacesList b ss → ∃ s ∈ ss, (t, f) ∈ subspaces b s
  | [], t, f, h => by simp [subspacesList] at h
  | s :: ss, t, f, h => by
    simp only [subspacesList, List.mem_append] at h
    rcases h with h | h
    · exact ⟨s, by simp, h⟩
    · obtain ⟨s', h1, h2⟩ := subspacesList_mem h
      exact ⟨s', List.mem_cons_of_mem _ h1, h2⟩

/-- A new object keeps the invariant. -/
theorem coherent_append {st : State G} (hc : Coherent st) (s : Space) (data : Nat → Data)
    (hid : s.id = st.spaces.length)
    (hsub : ∀ t b, (t, b) ∈ subspaces false s → t = s ∨ st.spaces[t.id]? = some t) :
    Coherent { st with spaces := st.spaces ++ [s], data := data } := by
  have key : ∀ t : Space, st.spaces[t.id]? = some t → (st.spaces ++ [s])[t.id]? = some t := by
    intro t ht
    have hlt : t.id < st.spaces.length := by
      by_contra hlt
      rw [List.getElem?_eq_none (by omega)] at ht
      simp at ht
    rw [List.getElem?_append_left hlt]; exact ht
  intro i t hi
  dsimp only at hi ⊢
  by_cases hlt : i < st.spaces.length
  · rw [List.getElem?_append_left hlt] at hi
    obtain ⟨h1, h2⟩ := hc i t hi
    exact ⟨h1, fun t' b h => key t' (h2 t' b h)⟩
  · have hi' : i = st.spaces.length ∧ t = s := by
      rw [List.getElem?_append_right (by omega)] at hi
      by_cases h0 : i - st.spaces.length = 0
      · rw [h0] at hi
        simp only [List.getElem?_cons_zero, Option.some.injEq] at hi
        exact ⟨by omega, hi.symm⟩
      · rw [List.getElem?_eq_none (by simp; omega)] at hi
        simp at hi
    obtain ⟨rfl, rfl⟩ := hi'
    refine ⟨hid, ?_⟩
    intro t' b h
    rcases hsub t' b h with rfl | h
    · rw [hid]; simp
    · exact key t' h

theorem own_append {st : State G} (ho : OwnOrdering st) (s : Space) (data : Nat → Data)
    (hd : ∀ j, j ≠ st.spaces.length → (data j).ordering = (st.data j).ordering)
    (hn : (data st.spaces.length).ordering = none) :
    OwnOrdering { st with spaces := st.spaces ++ [s], data := data } := by
  intro i o hi
  dsimp only at hi ⊢
  by_cases h : i = st.spaces.length
  · subst h; rw [hn] at hi; simp at hi
  · rw [hd i h] at hi
    have := ho i o hi
    have hlt : i < st.spaces.length := by
      by_contra hlt
      rw [List.getElem?_eq_none (by omega)] at this
      simp at this
    rw [List.getElem?_append_left hlt]; exact this

theorem coherent_step (st : State G) (hc : Coherent st) (e : Event G) :
    Coherent (step dofs st e).1 := by
  cases e with
  | changeGrid g => exact hc
  | newLeaf es fem codims m =>
    refine coherent_append hc _ _ rfl ?_
    intro t b h
    simp only [subspaces, List.mem_singleton, Prod.mk.injEq] at h
    exact Or.inl h.1
  | newNode b children =>
    simp only [step, newNode]
    cases children with
    | nil => exact hc
    | cons c children =>
      cases hl : lookup st.spaces (c :: children) with
      | none => exact hc
      | some cs =>
        dsimp only
        cases hr : resetRoot st.data (c :: children) with
        | mk data r =>
          cases r with
          | ok =>
            refine coherent_append hc _ _ rfl ?_
            intro t f h
            simp only [subspaces, List.mem_append, List.mem_singleton, Prod.mk.injEq] at h
            rcases h with h | h
            · right
              obtain ⟨s, hs, ht⟩ := subspacesList_mem h
              obtain ⟨i, _, hi⟩ := lookup_mem hl s hs
              obtain ⟨f', ht'⟩ := subspaces_flag s _ false t f ht
              exact (hc i s hi).2 t f' ht'
            · exact Or.inl h.1
          | hierarchyError => exact hc
          | unknown => exact hc
  | copy i =>
    simp only [step, copy]
    cases hs : st.spaces[i]? with
    | none => exact hc
    | some s =>
      cases s with
      | leaf l =>
        refine coherent_append hc _ _ rfl ?_
        intro t b h
        simp only [subspaces, List.mem_singleton, Prod.mk.injEq] at h
        exact Or.inl h.1
      | node i' b cs =>
        refine coherent_append hc _ _ rfl ?_
        intro t f h
        simp only [subspaces, List.mem_append, List.mem_singleton, Prod.mk.injEq] at h
        rcases h with h | h
        · right
          exact (hc i _ hs).2 t f (by simp only [subspaces, List.mem_append]; exact Or.inl h)
        · exact Or.inl h.1
  | update i force => exact mild_coherent (mild_update dofs st i force) hc
  | ordering i => exact mild_coherent (mild_ordering dofs st i) hc

theorem own_step (st : State G) (ho : OwnOrdering st) (e : Event G)
    (hf : ∀ i, e = .copy i → (st.data i).ordering = none) :
    OwnOrdering (step dofs st e).1 := by
  cases e with
  | changeGrid g => exact ho
  | newLeaf es fem codims m =>
    refine own_append ho _ _ ?_ ?_
    · intro j hj; rw [assign_ne _ _ hj]
    · rw [assign_same]; rfl
  | newNode b children =>
    simp only [step, newNode]
    cases children with
    | nil => exact ho
    | cons c children =>
      cases hl : lookup st.spaces (c :: children) with
      | none => exact ho
      | some cs =>
        dsimp only
        have hd := fun j => (resetRoot_data (c :: children) st.data j).1
        cases hr : resetRoot st.data (c :: children) with
        | mk data r =>
          rw [hr] at hd
          cases r with
          | ok =>
            refine own_append ho _ _ ?_ ?_
            · intro j hj; rw [assign_ne _ _ hj]; exact hd j
            · rw [assign_same]; rfl
          | hierarchyError => intro i o hi; exact ho i o (by rw [← hd i]; exact hi)
          | unknown => intro i o hi; exact ho i o (by rw [← hd i]; exact hi)
  | copy i =>
    simp only [step, copy]
    cases hs : st.spaces[i]? with
    | none => exact ho
    | some s =>
      refine own_append ho _ _ ?_ ?_
      · intro j hj; rw [assign_ne _ _ hj]
      · rw [assign_same]; exact hf i rfl
  | update i force => exact mild_own (mild_update dofs st i force) ho
  | ordering i => exact mild_own (mild_ordering dofs st i) ho

theorem run_append (st : State G) (a b : List (Event G)) :
    run dofs st (a ++ b) = run dofs (run dofs st a) b := by
  simp [run]

theorem run_invariants (g : G) (wanted : Nat → Finset Nat) (h : List (Event G)) :
    Coherent (run dofs (State.init g wanted) h) ∧
    (CopiesFresh dofs (State.init g wanted) h → OwnOrdering (run dofs (State.init g wanted) h)) := by
  induction h using List.reverseRecOn with
  | nil =>
    refine ⟨?_, ?_⟩
    · intro i s hi; simp [run, State.init] at hi
    · intro _ i o hi; simp [run, State.init, Data.init] at hi
  | append_singleton h e ih =>
    rw [run_append]
    refine ⟨coherent_step dofs _ ih.1 e, ?_⟩
    intro hf
    refine own_step dofs _ (ih.2 ?_) e ?_
    · intro pre i post hh
      exact hf pre i (post ++ [e]) (by rw [hh]; simp)
    · rintro i rfl
      exact hf h i [] rfl

/-! ## The results -/

theorem update_true_ok {st st' : State G} {i : Nat} {s : Space} (hc : Coherent st)
    (ho : OwnOrdering st) (hs : st.spaces[i]? = some s)
    (hu : update dofs st i true = (st', .ok)) {t : Space} {b : Bool}
    (ht : (t, b) ∈ subspaces false s) :
    globalSize st' t.id = .value (dimension dofs st.grid s) ∧
    reportedMaxLocalSize st' t.id = .value ((s.leaves.map Leaf.maxLocal).sum) ∧
    ((∀ t' b', (t', b') ∈ subspaces false s → t'.id = t.id → b' = false) →
      size st' t.id = .value (dimension dofs st.grid t)) ∧
    ((∀ t' b', (t', b') ∈ subspaces false s → t'.id = t.id → b' = true) →
      size st' t.id = .hierarchyError) := by
  -- the ordering which is updated is the one of the tree
  have main : ∀ st₁ : State G, st₁.grid = st.grid → st₁.es = updateSets true st.grid st.es s →
      updateWith dofs st₁ i s = (st', .ok) →
      st'.data = (updateOrdering dofs st.grid s (updateSets true st.grid st.es s)).2.2.foldl
        (writeData (updateOrdering dofs st.grid s (updateSets true st.grid st.es s)).2.1
          (maxLocalSize s)) st₁.data := by
    intro st₁ hg he h
    unfold updateWith at h
    split at h
    · simp at h
    · rw [hg, he] at h
      simp only [Prod.mk.injEq, and_true] at h
      rw [← h]
  have hdata : ∃ data₁, st'.data
      = (updateOrdering dofs st.grid s (updateSets true st.grid st.es s)).2.2.foldl
        (writeData (updateOrdering dofs st.grid s (updateSets true st.grid st.es s)).2.1
          (maxLocalSize s)) data₁ := by
    unfold update at hu
    rw [hs] at hu
    dsimp only at hu
    cases hor : (st.data i).ordering with
    | some o =>
      rw [hor] at hu
      have : o = s := by
        have := ho i o hor
        rw [hs] at this
        exact (Option.some.inj this).symm
      subst this
      dsimp only at hu
      exact ⟨_, main { st with es := updateSets true st.grid st.es o } rfl rfl hu⟩
    | none =>
      rw [hor] at hu
      dsimp only at hu
      unfold createOrdering at hu
      by_cases hp : orderingPossible s = true
      · rw [if_pos hp] at hu
        dsimp only at hu
        exact ⟨_, main { st with
          es := updateSets true st.grid st.es s
          data := assign st.data i { st.data i with ordering := some s } } rfl rfl hu⟩
      · rw [if_neg hp] at hu
        simp at hu
  obtain ⟨data₁, hdata⟩ := hdata
  obtain ⟨_, h2, h3⟩ := updateOrdering_spec dofs st.grid s (updateSets true st.grid st.es s)
    (updateSets_spec st.grid st.es s)
  rw [h2, h3] at hdata
  have hmem : t.id ∈ ((subspaces false s).map (written dofs st.grid)).map Prod.fst := by
    rw [List.map_map]
    exact List.mem_map.2 ⟨(t, b), ht, rfl⟩
  obtain ⟨w1, w2, w3, w4, w5⟩ := writes_in (dimension dofs st.grid s) (maxLocalSize s) _ data₁
    t.id hmem
  rw [← hdata] at w1 w2 w3 w4 w5
  have hco : ∀ t' b', (t', b') ∈ subspaces false s → t'.id = t.id → t' = t := by
    intro t' b' ht' hid
    have e1 := (hc i s hs).2 t' b' ht'
    have e2 := (hc i s hs).2 t b ht
    rw [hid, e2] at e1
    exact (Option.some.inj e1).symm
  refine ⟨?_, ?_, ?_, ?_⟩
  · unfold globalSize; rw [w1, w2]; rfl
  · unfold reportedMaxLocalSize; rw [w1, w3]; rfl
  · intro hb
    have := w4 (dimension dofs st.grid t) (by
      intro o ho' hid
      obtain ⟨⟨t', b'⟩, hm, rfl⟩ := List.mem_map.1 ho'
      have hb' := hb t' b' hm hid
      subst hb'
      simp only [written] at hid ⊢
      rw [hco t' false hm hid]
      rfl)
    unfold size; rw [w1, this.1, this.2]; rfl
  · intro hb
    have := w5 (by
      intro o ho' hid
      obtain ⟨⟨t', b'⟩, hm, rfl⟩ := List.mem_map.1 ho'
      have hb' := hb t' b' hm hid
      subst hb'
      rfl)
    unfold size; rw [w1, this]; rfl

theorem reports_congr {st st' : State G} {j : Nat}
    (h1 : (st'.data j).initialized = (st.data j).initialized)
    (h2 : (st'.data j).size = (st.data j).size)
    (h3 : (st'.data j).globalSize = (st.data j).globalSize)
    (h4 : (st'.data j).maxLocalSize = (st.data j).maxLocalSize)
    (h5 : (st'.data j).sizeAvailable = (st.data j).sizeAvailable) :
    reports st' j = reports st j := by
  unfold reports size globalSize reportedMaxLocalSize
  rw [h1, h2, h3, h4, h5]

theorem reports_createOrdering (st : State G) (i : Nat) (s : Space) (j : Nat) :
    reports (createOrdering st i s).1 j = reports st j := by
  unfold createOrdering
  split
  · by_cases h : j = i
    · subst h
      apply reports_congr <;> simp [assign]
    · apply reports_congr <;> simp [assign, h]
  · rfl

theorem reports_updateWith (st : State G) (i : Nat) (o : Space) (j : Nat) :
    reports (updateWith dofs st i o).1 j = reports st j ∨
      (Contains o j ∧ (updateWith dofs st i o).2 = .ok) := by
  unfold updateWith
  split
  · exact Or.inl rfl
  · by_cases hj : j ∈ (updateOrdering dofs st.grid o st.es).2.2.map Prod.fst
    · right
      rw [updateOrdering_ids] at hj
      obtain ⟨⟨t, b⟩, hm, hid⟩ := List.mem_map.1 hj
      exact ⟨⟨t, b, hm, hid⟩, rfl⟩
    · left
      have := (writes_frame (updateOrdering dofs st.grid o st.es).2.1 (maxLocalSize o)
        (updateOrdering dofs st.grid o st.es).2.2 st.data j).2.2.2 hj
      apply reports_congr <;> dsimp only <;> rw [this]

theorem reports_step {st : State G} (ho : OwnOrdering st) (e : Event G) {j : Nat}
    (hj : j < st.spaces.length) :
    reports (step dofs st e).1 j = reports st j ∨
    ∃ i s, (e = .ordering i ∨ ∃ force, e = .update i force) ∧ st.spaces[i]? = some s ∧
      Contains s j ∧ (step dofs st e).2 = .ok := by
  have hne : j ≠ st.spaces.length := by omega
  cases e with
  | changeGrid g => exact Or.inl rfl
  | newLeaf es fem codims m =>
    left
    simp only [step, newLeaf]
    apply reports_congr <;> simp [assign, hne]
  | newNode b children =>
    left
    simp only [step, newNode]
    cases children with
    | nil => rfl
    | cons c children =>
      cases hl : lookup st.spaces (c :: children) with
      | none => rfl
      | some cs =>
        dsimp only
        obtain ⟨_, d2, d3, d4, d5, d6, _⟩ := resetRoot_data (c :: children) st.data j
        cases hr : resetRoot st.data (c :: children) with
        | mk data r =>
          rw [hr] at d2 d3 d4 d5 d6
          cases r with
          | ok => apply reports_congr <;> dsimp only <;> rw [assign_ne _ _ hne] <;> assumption
          | hierarchyError => exact reports_congr d2 d3 d4 d5 d6
          | unknown => exact reports_congr d2 d3 d4 d5 d6
  | copy i =>
    left
    simp only [step, copy]
    cases hs : st.spaces[i]? with
    | none => rfl
    | some s => apply reports_congr <;> simp [assign, hne]
  | update i force =>
    simp only [step]
    unfold update
    cases hs : st.spaces[i]? with
    | none => exact Or.inl rfl
    | some s =>
      dsimp only
      cases hor : (st.data i).ordering with
      | some o =>
        dsimp only
        have : o = s := by
          have := ho i o hor
          rw [hs] at this
          exact (Option.some.inj this).symm
        subst this
        rcases reports_updateWith dofs { st with es := updateSets force st.grid st.es o } i o j
          with h | ⟨h1, h2⟩
        · exact Or.inl h
        · exact Or.inr ⟨i, o, Or.inr ⟨force, rfl⟩, hs, h1, h2⟩
      | none =>
        dsimp only
        have h0 := reports_createOrdering { st with es := updateSets force st.grid st.es s } i s j
        cases hc : createOrdering { st with es := updateSets force st.grid st.es s } i s with
        | mk st' r =>
          rw [hc] at h0
          cases r with
          | ok =>
            rcases reports_updateWith dofs st' i s j with h | ⟨h1, h2⟩
            · exact Or.inl (h.trans h0)
            · exact Or.inr ⟨i, s, Or.inr ⟨force, rfl⟩, hs, h1, h2⟩
          | hierarchyError => exact Or.inl h0
          | unknown => exact Or.inl h0
  | ordering i =>
    simp only [step]
    unfold ordering
    cases hs : st.spaces[i]? with
    | none => exact Or.inl rfl
    | some s =>
      dsimp only
      split
      · exact Or.inl rfl
      · cases hor : (st.data i).ordering with
        | some o => exact Or.inl rfl
        | none =>
          dsimp only
          have h0 := reports_createOrdering st i s j
          cases hc : createOrdering st i s with
          | mk st' r =>
            rw [hc] at h0
            cases r with
            | ok =>
              rcases reports_updateWith dofs st' i s j with h | ⟨h1, h2⟩
              · exact Or.inl (h.trans h0)
              · exact Or.inr ⟨i, s, Or.inl rfl, hs, h1, h2⟩
            | hierarchyError => exact Or.inl h0
            | unknown => exact Or.inl h0

theorem reports_update_error {st : State G} {i : Nat} {force : Bool}
    (hu : (update dofs st i force).2 ≠ .ok) (j : Nat) :
    reports (update dofs st i force).1 j = reports st j := by
  unfold update at hu ⊢
  cases hs : st.spaces[i]? with
  | none => rfl
  | some s =>
    rw [hs] at hu
    dsimp only at hu ⊢
    cases hor : (st.data i).ordering with
    | some o =>
      rw [hor] at hu
      dsimp only at hu ⊢
      rcases reports_updateWith dofs { st with es := updateSets force st.grid st.es s } i o j
        with h | ⟨_, h2⟩
      · exact h
      · exact absurd h2 hu
    | none =>
      rw [hor] at hu
      dsimp only at hu ⊢
      have h0 := reports_createOrdering { st with es := updateSets force st.grid st.es s } i s j
      cases hc : createOrdering { st with es := updateSets force st.grid st.es s } i s with
      | mk st' r =>
        rw [hc] at h0 hu
        cases r with
        | ok =>
          rcases reports_updateWith dofs st' i s j with h | ⟨_, h2⟩
          · exact h.trans h0
          · exact absurd h2 hu
        | hierarchyError => exact h0
        | unknown => exact h0

theorem reports_ordering_error {st : State G} {i : Nat}
    (hu : (ordering dofs st i).2 ≠ .ok) (j : Nat) :
    reports (ordering dofs st i).1 j = reports st j := by
  unfold ordering at hu ⊢
  cases hs : st.spaces[i]? with
  | none => rfl
  | some s =>
    rw [hs] at hu
    dsimp only at hu ⊢
    cases hr : (st.data i).isRoot with
    | false => rfl
    | true =>
      rw [hr] at hu
      simp only [Bool.not_true, Bool.false_eq_true, if_false] at hu ⊢
      cases hor : (st.data i).ordering with
      | some o => rfl
      | none =>
        rw [hor] at hu
        dsimp only at hu ⊢
        have h0 := reports_createOrdering st i s j
        cases hc : createOrdering st i s with
        | mk st' r =>
          rw [hc] at h0 hu
          cases r with
          | ok =>
            rcases reports_updateWith dofs st' i s j with h | ⟨_, h2⟩
            · exact h.trans h0
            · exact absurd h2 hu
          | hierarchyError => exact h0
          | unknown => exact h0

theorem updateWith_initializes {st st' : State G} {i : Nat} {o : Space}
    (hu : updateWith dofs st i o = (st', .ok)) {j : Nat} (hj : Contains o j) :
    (st'.data j).initialized = true := by
  unfold updateWith at hu
  split at hu
  · simp at hu
  · simp only [Prod.mk.injEq, and_true] at hu
    rw [← hu]
    refine (writes_in _ _ _ _ j ?_).1
    rw [updateOrdering_ids]
    obtain ⟨t, b, hm, hid⟩ := hj
    exact List.mem_map.2 ⟨(t, b), hm, hid⟩

theorem update_initializes {st st' : State G} (ho : OwnOrdering st) {i : Nat} {s : Space}
    {force : Bool} (hs : st.spaces[i]? = some s) (hu : update dofs st i force = (st', .ok))
    {j : Nat} (hj : Contains s j) : (st'.data j).initialized = true := by
  unfold update at hu
  rw [hs] at hu
  dsimp only at hu
  cases hor : (st.data i).ordering with
  | some o =>
    rw [hor] at hu
    have : o = s := by
      have := ho i o hor
      rw [hs] at this
      exact (Option.some.inj this).symm
    subst this
    exact updateWith_initializes dofs hu hj
  | none =>
    rw [hor] at hu
    dsimp only at hu
    cases hc : createOrdering { st with es := updateSets force st.grid st.es s } i s with
    | mk st'' r =>
      rw [hc] at hu
      cases r with
      | ok => exact updateWith_initializes dofs hu hj
      | hierarchyError => simp at hu
      | unknown => simp at hu

/-! ## When orderings can be made -/

mutual

theorem subspaces_leaves : ∀ (s : Space) (b : Bool) (t : Space) (f : Bool),
    (t, f) ∈ subspaces b s → ∀ l ∈ t.leaves, l ∈ s.leaves
  | .leaf l, b, t, f, h => by
    simp only [subspaces, List.mem_singleton, Prod.mk.injEq] at h
    rw [h.1]; exact fun _ h => h
  | .node i c cs, b, t, f, h => by
    simp only [subspaces, List.mem_append, List.mem_singleton, Prod.mk.injEq] at h
    rcases h with h | h
    · exact subspacesList_leaves cs _ t f h
    · rw [h.1]; exact fun _ h => h

theorem subspacesList_leaves : ∀ (ss : List Space) (b : Bool) (t : Space) (f : Bool),
    (t, f) ∈ subspacesList b ss → ∀ l ∈ t.leaves, l ∈ leavesList ss
  | [], _, _, _, h => by simp [subspacesList] at h
  | s :: ss, b, t, f, h => by
    simp only [subspacesList, List.mem_append] at h
    simp only [leavesList, List.mem_append]
    rcases h with h | h
    · exact fun l hl => Or.inl (subspaces_leaves s b t f h l hl)
    · exact fun l hl => Or.inr (subspacesList_leaves ss b t f h l hl)

end

theorem all_same (ls : List Leaf) :
    (match ls with
      | [] => true
      | l :: ls => ls.all fun l' => l'.es == l.es) = true ↔
    ∀ l ∈ ls, ∀ l' ∈ ls, l.es = l'.es := by
  cases ls with
  | nil => simp
  | cons a ls =>
    simp only [List.all_eq_true, beq_iff_eq]
    constructor
    · intro h l hl l' hl'
      have key : ∀ l ∈ a :: ls, l.es = a.es := by
        intro l hl
        rcases List.mem_cons.1 hl with rfl | hl
        · rfl
        · exact h l hl
      rw [key l hl, key l' hl']
    · intro h l hl
      exact h l (by simp [hl]) a (by simp)

mutual

theorem orderingPossible_iff : ∀ s : Space, orderingPossible s = true ↔ OneEntitySet s
  | .leaf l => by
    simp [orderingPossible, OneEntitySet, subspaces]
  | .node i true cs => by
    unfold orderingPossible
    refine (all_same (leavesList cs)).trans ?_
    constructor
    · intro h i' cs' b hm l hl l' hl'
      have hsub := subspaces_leaves _ false _ b hm
      exact h l (hsub l hl) l' (hsub l' hl')
    · intro h
      exact h i cs false (self_mem false _)
  | .node i false cs => by
    unfold orderingPossible
    refine (orderingPossibleList_iff cs).trans ?_
    constructor
    · intro h i' cs' b hm
      simp only [subspaces, Bool.or_false, List.mem_append, List.mem_singleton, Prod.mk.injEq,
        Space.node.injEq, Bool.true_eq_false, false_and, and_false, or_false] at hm
      exact h i' cs' b hm
    · intro h i' cs' b hm
      exact h i' cs' b (by
        simp only [subspaces, Bool.or_false, List.mem_append]
        exact Or.inl hm)

theorem orderingPossibleList_iff : ∀ ss : List Space, orderingPossibleList ss = true ↔
    ∀ i cs b, (Space.node i true cs, b) ∈ subspacesList false ss →
      ∀ l ∈ leavesList cs, ∀ l' ∈ leavesList cs, l.es = l'.es
  | [] => by simp [orderingPossibleList, subspacesList]
  | s :: ss => by
    simp only [orderingPossibleList, Bool.and_eq_true, subspacesList, List.mem_append]
    rw [orderingPossible_iff s, orderingPossibleList_iff ss]
    constructor
    · rintro ⟨h1, h2⟩ i cs b (h | h)
      · exact h1 i cs b h
      · exact h2 i cs b h
    · intro h
      exact ⟨fun i cs b hm => h i cs b (Or.inl hm), fun i cs b hm => h i cs b (Or.inr hm)⟩

end

/-- A space with an ordering is one whose ordering can be made. -/
def Possible (st : State G) : Prop :=
  ∀ i s, st.spaces[i]? = some s → (st.data i).ordering ≠ none → orderingPossible s = true

theorem possible_append {st : State G} (ho : Possible st) (s : Space) (data : Nat → Data)
    (hd : ∀ j, j ≠ st.spaces.length → (data j).ordering = (st.data j).ordering)
    (hn : (data st.spaces.length).ordering ≠ none → orderingPossible s = true) :
    Possible { st with spaces := st.spaces ++ [s], data := data } := by
  intro i t hi hne
  dsimp only at hi hne
  by_cases hlt : i < st.spaces.length
  · rw [List.getElem?_append_left hlt] at hi
    rw [hd i (by omega)] at hne
    exact ho i t hi hne
  · rw [List.getElem?_append_right (by omega)] at hi
    by_cases h0 : i - st.spaces.length = 0
    · rw [h0] at hi
      simp only [List.getElem?_cons_zero, Option.some.injEq] at hi
      subst hi
      have : i = st.spaces.length := by omega
      rw [this] at hne
      exact hn hne
    · rw [List.getElem?_eq_none (by simp; omega)] at hi
      simp at hi

theorem possible_updateWith {st : State G} (h : Possible st) (i : Nat) (o : Space) :
    Possible (updateWith dofs st i o).1 := by
  intro j s hj hne
  obtain ⟨a, _, _, d⟩ := updateWith_data dofs st i o j
  rw [d] at hj
  rw [a] at hne
  exact h j s hj hne

theorem possible_createOrdering {st : State G} (h : Possible st) (i : Nat) (s : Space)
    (hs : st.spaces[i]? = some s) : Possible (createOrdering st i s).1 := by
  unfold createOrdering
  by_cases hp : orderingPossible s = true
  · rw [if_pos hp]
    intro j t hj hne
    by_cases hji : j = i
    · subst hji
      dsimp only at hj
      rw [hs] at hj
      rw [← Option.some.inj hj]; exact hp
    · dsimp only at hj hne
      rw [assign_ne _ _ hji] at hne
      exact h j t hj hne
  · rw [if_neg hp]; exact h

theorem possible_step {st : State G} (ho : Possible st) (e : Event G) :
    Possible (step dofs st e).1 := by
  cases e with
  | changeGrid g => exact ho
  | newLeaf es fem codims m =>
    refine possible_append ho _ _ ?_ ?_
    · intro j hj; rw [assign_ne _ _ hj]
    · intro _; rfl
  | newNode b children =>
    simp only [step, newNode]
    cases children with
    | nil => exact ho
    | cons c children =>
      cases hl : lookup st.spaces (c :: children) with
      | none => exact ho
      | some cs =>
        dsimp only
        have hd := fun j => (resetRoot_data (c :: children) st.data j).1
        cases hr : resetRoot st.data (c :: children) with
        | mk data r =>
          rw [hr] at hd
          cases r with
          | ok =>
            refine possible_append ho _ _ ?_ ?_
            · intro j hj; rw [assign_ne _ _ hj]; exact hd j
            · rw [assign_same]; intro hne; exact absurd rfl hne
          | hierarchyError => intro i s hs hi; exact ho i s hs (by rw [← hd i]; exact hi)
          | unknown => intro i s hs hi; exact ho i s hs (by rw [← hd i]; exact hi)
  | copy i =>
    simp only [step, copy]
    cases hs : st.spaces[i]? with
    | none => exact ho
    | some s =>
      refine possible_append ho _ _ ?_ ?_
      · intro j hj; rw [assign_ne _ _ hj]
      · rw [assign_same]
        intro hne
        have := ho i s hs hne
        cases s with
        | leaf l => rfl
        | node i' b cs => cases b <;> simpa only [orderingPossible] using this
  | update i force =>
    simp only [step]
    unfold update
    cases hs : st.spaces[i]? with
    | none => exact ho
    | some s =>
      dsimp only
      have h0 : Possible { st with es := updateSets force st.grid st.es s } := ho
      cases hor : (st.data i).ordering with
      | some o => exact possible_updateWith dofs h0 i o
      | none =>
        dsimp only
        have h1 := possible_createOrdering h0 i s hs
        cases hc : createOrdering { st with es := updateSets force st.grid st.es s } i s with
        | mk st' r =>
          rw [hc] at h1
          cases r with
          | ok => exact possible_updateWith dofs h1 i s
          | hierarchyError => exact h1
          | unknown => exact h1
  | ordering i =>
    simp only [step]
    unfold ordering
    cases hs : st.spaces[i]? with
    | none => exact ho
    | some s =>
      dsimp only
      split
      · exact ho
      · cases hor : (st.data i).ordering with
        | some o => exact ho
        | none =>
          dsimp only
          have h1 := possible_createOrdering ho i s hs
          cases hc : createOrdering st i s with
          | mk st' r =>
            rw [hc] at h1
            cases r with
            | ok => exact possible_updateWith dofs h1 i s
            | hierarchyError => exact h1
            | unknown => exact h1

theorem run_possible (g : G) (wanted : Nat → Finset Nat) (h : List (Event G)) :
    Possible (run dofs (State.init g wanted) h) := by
  induction h using List.reverseRecOn with
  | nil => intro i s hi; simp [run, State.init] at hi
  | append_singleton h e ih => rw [run_append]; exact possible_step dofs ih e

theorem updateWith_outcome (st : State G) (i : Nat) (o : Space) :
    (updateWith dofs st i o).2 = if (st.data i).isRoot then .ok else .hierarchyError := by
  unfold updateWith
  cases (st.data i).isRoot <;> rfl

theorem update_outcome {st : State G} (hp : Possible st) {i : Nat} {s : Space}
    (hs : st.spaces[i]? = some s) (force : Bool) :
    (update dofs st i force).2 =
      if (st.data i).isRoot ∧ orderingPossible s then .ok else .hierarchyError := by
  unfold update
  rw [hs]
  dsimp only
  cases hor : (st.data i).ordering with
  | some o =>
    dsimp only
    rw [updateWith_outcome]
    have := hp i s hs (by rw [hor]; simp)
    simp [this]
  | none =>
    dsimp only
    unfold createOrdering
    cases hps : orderingPossible s with
    | false => simp
    | true =>
      simp only [if_true]
      rw [updateWith_outcome]
      simp [assign]

theorem ordering_outcome {st : State G} (hp : Possible st) {i : Nat} {s : Space}
    (hs : st.spaces[i]? = some s) :
    (ordering dofs st i).2 =
      if (st.data i).isRoot ∧ orderingPossible s then .ok else .hierarchyError := by
  unfold ordering
  rw [hs]
  dsimp only
  cases hr : (st.data i).isRoot with
  | false => simp
  | true =>
    simp only [Bool.not_true, Bool.false_eq_true, if_false, true_and]
    cases hor : (st.data i).ordering with
    | some o =>
      dsimp only
      have := hp i s hs (by rw [hor]; simp)
      simp [this]
    | none =>
      dsimp only
      unfold createOrdering
      cases hps : orderingPossible s with
      | false => simp
      | true =>
        simp only [if_true]
        rw [updateWith_outcome]
        simp [assign, hr]

/-! ## Composition -/

theorem resetRoot_outcome : ∀ (cs : List Nat) (data : Nat → Data),
    ((resetRoot data cs).2 = .ok ↔
      ∀ c ∈ cs, ¬((data c).initialized = true ∧ (data c).isRoot = true)) ∧
    ((resetRoot data cs).2 = .ok ∨ (resetRoot data cs).2 = .hierarchyError)
  | [], data => by simp [resetRoot]
  | c :: cs, data => by
    unfold resetRoot
    split
    · rename_i hc
      simp only [Bool.and_eq_true] at hc
      refine ⟨⟨fun h => by simp at h, fun h => absurd hc (h c (by simp))⟩, Or.inr rfl⟩
    · rename_i hc
      simp only [Bool.and_eq_true] at hc
      obtain ⟨h1, h2⟩ := resetRoot_outcome cs (assign data c { data c with isRoot := false })
      refine ⟨h1.trans ?_, h2⟩
      constructor
      · intro h c' hc'
        rcases List.mem_cons.1 hc' with rfl | hm
        · exact hc
        · by_cases he : c' = c
          · rw [he]; exact hc
          · have := h c' hm
            rw [assign_ne _ _ he] at this
            exact this
      · intro h c' hm
        by_cases he : c' = c
        · subst he; rw [assign_same]; simp
        · rw [assign_ne _ _ he]; exact h c' (by simp [hm])

theorem resetRoot_children : ∀ (cs : List Nat) (data : Nat → Data) (j : Nat),
    ((data j).isRoot = false → ((resetRoot data cs).1 j).isRoot = false) ∧
    ((resetRoot data cs).2 = .ok → j ∈ cs → ((resetRoot data cs).1 j).isRoot = false) ∧
    (j ∉ cs → (resetRoot data cs).1 j = data j)
  | [], data, j => by simp [resetRoot]
  | c :: cs, data, j => by
    unfold resetRoot
    split
    · exact ⟨fun h => h, fun h => by simp at h, fun _ => rfl⟩
    · obtain ⟨h1, h2, h3⟩ := resetRoot_children cs (assign data c { data c with isRoot := false }) j
      by_cases he : j = c
      · subst he
        rw [assign_same] at h1
        exact ⟨fun _ => h1 rfl, fun _ _ => h1 rfl, fun h => absurd (by simp) h⟩
      · rw [assign_ne _ _ he] at h1 h3
        refine ⟨h1, ?_, ?_⟩
        · intro ho hj
          exact h2 ho (by simpa [he] using hj)
        · intro hj
          exact h3 (by simp only [List.mem_cons, not_or] at hj; exact hj.2)

theorem lookup_some {spaces : List Space} : ∀ {is : List Nat},
    (∀ i ∈ is, i < spaces.length) → ∃ cs, lookup spaces is = some cs
  | [], _ => ⟨[], rfl⟩
  | i :: is, h => by
    obtain ⟨cs, hcs⟩ := lookup_some (is := is) fun j hj => h j (by simp [hj])
    have hi := h i (by simp)
    refine ⟨spaces[i] :: cs, ?_⟩
    unfold lookup
    rw [List.getElem?_eq_getElem hi, hcs]

/-- What a step does to the flags of an existing space. -/
theorem flags_step (st : State G) (e : Event G) {j : Nat} (hj : j < st.spaces.length) :
    j < (step dofs st e).1.spaces.length ∧
    ((st.data j).initialized = true → ((step dofs st e).1.data j).initialized = true ∧
      ((step dofs st e).1.data j).isRoot = (st.data j).isRoot) ∧
    ((st.data j).isRoot = false → ((step dofs st e).1.data j).isRoot = false) := by
  have hne : j ≠ st.spaces.length := by omega
  cases e with
  | changeGrid g => exact ⟨hj, fun h => ⟨h, rfl⟩, fun h => h⟩
  | newLeaf es fem codims m =>
    simp only [step, newLeaf]
    rw [assign_ne _ _ hne]
    exact ⟨by simp; omega, fun h => ⟨h, rfl⟩, fun h => h⟩
  | newNode b children =>
    simp only [step, newNode]
    cases children with
    | nil => exact ⟨hj, fun h => ⟨h, rfl⟩, fun h => h⟩
    | cons c children =>
      cases hl : lookup st.spaces (c :: children) with
      | none => exact ⟨hj, fun h => ⟨h, rfl⟩, fun h => h⟩
      | some cs =>
        dsimp only
        obtain ⟨_, d2, _, _, _, _, d7⟩ := resetRoot_data (c :: children) st.data j
        have c1 := (resetRoot_children (c :: children) st.data j).1
        cases hr : resetRoot st.data (c :: children) with
        | mk data r =>
          rw [hr] at d2 d7 c1
          cases r with
          | ok =>
            dsimp only
            rw [assign_ne _ _ hne]
            exact ⟨by simp; omega, fun h => ⟨by rw [d2]; exact h, d7 h⟩, c1⟩
          | hierarchyError => exact ⟨hj, fun h => ⟨by rw [d2]; exact h, d7 h⟩, c1⟩
          | unknown => exact ⟨hj, fun h => ⟨by rw [d2]; exact h, d7 h⟩, c1⟩
  | copy i =>
    simp only [step, copy]
    cases hs : st.spaces[i]? with
    | none => exact ⟨hj, fun h => ⟨h, rfl⟩, fun h => h⟩
    | some s =>
      dsimp only
      rw [assign_ne _ _ hne]
      exact ⟨by simp; omega, fun h => ⟨h, rfl⟩, fun h => h⟩
  | update i force =>
    have hm := mild_update dofs st i force
    obtain ⟨a, b, _⟩ := hm.2 j
    simp only [step]
    exact ⟨by rw [hm.1]; exact hj, fun h => ⟨b h, a⟩, fun h => by rw [a]; exact h⟩
  | ordering i =>
    have hm := mild_ordering dofs st i
    obtain ⟨a, b, _⟩ := hm.2 j
    simp only [step]
    exact ⟨by rw [hm.1]; exact hj, fun h => ⟨b h, a⟩, fun h => by rw [a]; exact h⟩

theorem flags_run (h : List (Event G)) (st : State G) {j : Nat} (hj : j < st.spaces.length) :
    ((st.data j).initialized = true → ((run dofs st h).data j).initialized = true ∧
      ((run dofs st h).data j).isRoot = (st.data j).isRoot) ∧
    ((st.data j).isRoot = false → ((run dofs st h).data j).isRoot = false) := by
  induction h generalizing st with
  | nil => exact ⟨fun h => ⟨h, rfl⟩, fun h => h⟩
  | cons e h ih =>
    obtain ⟨a, b, c⟩ := flags_step dofs st e hj
    obtain ⟨d, f⟩ := ih (step dofs st e).1 a
    refine ⟨?_, fun h => f (c h)⟩
    intro hi
    obtain ⟨b1, b2⟩ := b hi
    obtain ⟨d1, d2⟩ := d b1
    exact ⟨d1, d2.trans b2⟩

end Verif.SpaceLifecycle
