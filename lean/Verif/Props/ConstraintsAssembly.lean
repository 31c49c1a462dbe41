import Verif.Proofs.ConstraintsAssembly
import Verif.Props.Constraints
/-
Properties of the assembly of constraints on a grid.
-/
namespace Verif
open GridAssembler Constraints ConsAsm ConsAsm.Spec

/-! ## C112: exactly the marked degrees of freedom are constrained -/

section C112
variable {D F I : Type} [DecidableEq D] [DecidableEq I]

/-- After `constraints(p,gfs,cg)` a degree of freedom is constrained exactly if on some element one of the leaf spaces has it and
its constraints class, with the parameters that belong to the leaf, marks it; every constrained degree of freedom is a Dirichlet
one. (Of `RT0Constraints` it is required that the finite element has a degree of freedom for each face.) -/
theorem C112_constrained_dofs (ap : Bool) (elements : List Elem) (element : Nat → Elem) (index : D → I) (p : Tree Param)
    (space : Tree (Leaf D F)) (cg₀ cg : Trafo I F) (cls : Leaf D F → Class) (ps : List (Param × Leaf D F))
    (hcls : ∀ l ∈ space.leaves, l.cons = (cls l).cons) (hps : pairs p space = some ps)
    (hrt : ∀ e ∈ elements, ∀ i ∈ e.isects, ∀ l ∈ space.leaves, cls l = .rt0 → l.keys e ≠ [] →
      i.indexInInside < (l.keys e).length)
    (h : constraints ap elements element index p space cg₀ = some cg) :
    (∀ k, cg.Constrained k ↔ ∃ e ∈ elements, ∃ pl ∈ ps, ∃ n key, (pl.2.keys e)[n]? = some key ∧
      (cls pl.2).Marks ap pl.1 e n key ∧ index (pl.2.dof e n) = k) ∧
    (∀ k, cg.Constrained k → cg.Dirichlet k) ∧ cg.nonDirichlet = false := by
  unfold constraints at h
  rw [hps] at h
  cases h
  have hls := pairs_snd p space ps hps
  have hm := fun k r => elements_mem (I := I) cls ps space.leaves hls hcls ap elements element index hrt k r
  obtain ⟨h1, h2, _, _, h5, _, _⟩ := C15_contributions (elements.flatMap (visitElement ap element index ps space.leaves)) cg₀
  have hc : ∀ k, (assemble (elements.flatMap (visitElement ap element index ps space.leaves)) cg₀).Constrained k ↔
      ∃ e ∈ elements, ∃ d, MarksOf ps e (fun p l n key => (cls l).Marks ap p e n key) d ∧ index d = k := by
    intro k
    rw [h2]
    constructor
    · rintro ⟨c, hc, d, row, hd, hk⟩
      exact ((hm k row).1 ⟨c, hc, d, hd, hk⟩).2
    · intro h
      obtain ⟨c, hc, d, hd, hk⟩ := (hm k []).2 ⟨rfl, h⟩
      exact ⟨c, hc, d, [], hd, hk⟩
  refine ⟨fun k => ?_, fun k hk => ?_, ?_⟩
  · rw [hc]
    constructor
    · rintro ⟨e, he, d, ⟨pl, hpl, n, key, hk, hM, rfl⟩, hd⟩
      exact ⟨e, he, pl, hpl, n, key, hk, hM, hd⟩
    · rintro ⟨e, he, pl, hpl, n, key, hk, hM, hd⟩
      exact ⟨e, he, _, ⟨pl, hpl, n, key, hk, hM, rfl⟩, hd⟩
  · rw [h1]
    obtain ⟨c, hc', d, hd, hk'⟩ := (hm k []).2 ⟨rfl, (hc k).1 hk⟩
    exact ⟨c, hc', d, hd, hk'⟩
  · by_contra hne
    have ht : (assemble (elements.flatMap (visitElement ap element index ps space.leaves)) cg₀).nonDirichlet = true := by
      simpa using hne
    obtain ⟨k, j, w, c, hc', d, row, hr, hk, e, he, _⟩ := h5 ht
    have := ((hm k row).1 ⟨c, hc', d, hr, hk⟩).1
    rw [this] at he
    simp at he

end C112

/-! ### A grid: two triangles, five edges, four vertices -/

/-- A name of a degree of freedom: leaf, codimension, entity, number on the entity. -/
abbrev DofName := Nat × Nat × (Nat × Nat) × Nat

/-- A triangle. -/
def exTriangle (id : Nat) (part : Partition) (edges vertices : List Nat) (isects : List CIsect) : Elem where
  id := id
  partition := part
  numSub := fun c => if c = 0 then 1 else 3
  sub := fun c s => if c = 0 then (2, id) else if c = 1 then (1, edges.getD s 0) else (0, vertices.getD s 0)
  faceSub := fun f c => if c = 1 then [f] else if c = 2 then (if f = 0 then [0, 1] else if f = 1 then [0, 2] else [1, 2]) else []
  isects := isects

/-- The two triangles; the second one may be a ghost. -/
def exElements (part : Partition) : List Elem :=
  [exTriangle 0 .interior [0, 1, 2] [0, 1, 2] [⟨⟨0, false, true, 0, false, false⟩, 0⟩, ⟨⟨1, false, true, 0, false, false⟩, 1⟩,
     ⟨⟨2, true, false, 1, true, true⟩, 2⟩],
   exTriangle 1 part [2, 3, 4] [1, 2, 3] [⟨⟨0, true, false, 0, true, true⟩, 0⟩, ⟨⟨1, false, true, 0, false, false⟩, 1⟩,
     ⟨⟨2, false, part = .interior, 0, false, false⟩, 2⟩]]

/-- The element with a number. -/
def exElement (part : Partition) (n : Nat) : Elem := (exElements part).getD n (exTriangle 9 .interior [] [] [])

/-- Quadratic elements: a DOF for each vertex and one for each edge. -/
def exLeaf (no : Nat) (cons : Cons DofName Int) : Leaf DofName Int where
  no := no
  keys := fun _ => [⟨0, 2, 0⟩, ⟨1, 2, 0⟩, ⟨2, 2, 0⟩, ⟨0, 1, 0⟩, ⟨1, 1, 0⟩, ⟨2, 1, 0⟩]
  dof := fun e i => match [(2, 0), (2, 1), (2, 2), (1, 0), (1, 1), (1, 2)][i]? with
    | some (c, s) => (no, c, e.sub c s, 0)
    | none => (no, 0, (0, 0), 0)
  cons := cons

/-- Dirichlet condition on the first face of the first triangle. -/
def exParam : Param := ⟨fun e i => e.id = 0 ∧ i.indexInInside = 0, fun _ _ => false⟩

/-- `C112_constrained_dofs` on two triangles: of the quadratic degrees of freedom the two vertices and the edge of the Dirichlet
face are constrained. -/
example : ((constraints true (exElements .interior) (exElement .interior) id (.leaf exParam)
      (.leaf (exLeaf 0 conformingDirichlet)) Trafo.empty).map fun cg => cg.rows.map Prod.fst)
    = some [(0, 2, (0, 0), 0), (0, 2, (0, 1), 0), (0, 1, (1, 0), 0)] := by decide +kernel

/-- The hypotheses of `C112_constrained_dofs` are met by a system of two spaces with different constraints classes. -/
example : let t := Tree.node [.leaf (exLeaf 0 conformingDirichlet), .leaf (exLeaf 1 ConsAsm.rt0)]
    (∀ l ∈ t.leaves, l.cons = (if l.no = 0 then Class.conforming else .rt0).cons) ∧
    (pairs (.node [.leaf exParam, .leaf noDirichletParameters]) t).isSome ∧
    (∀ e ∈ exElements .interior, ∀ i ∈ e.isects, ∀ l ∈ t.leaves, l.keys e ≠ [] → i.indexInInside < (l.keys e).length) := by
  refine ⟨?_, rfl, by decide⟩
  intro l hl
  simp only [Tree.leaves, Tree.leavesList, List.append_nil, List.singleton_append, List.mem_cons, List.not_mem_nil,
    or_false] at hl
  rcases hl with rfl | rfl <;> rfl

/-! ## C113: conforming and overlapping Dirichlet constraints -/

section C113
variable {F I : Type} [DecidableEq I]

/-- What the theorems about entities share: the space's leaves name their degrees of freedom by entities, different leaves have
different numbers, and different names have different container indices. -/
structure EntitySpace (elements : List Elem) (index : DofName → I) (ps : List (Param × Leaf DofName F)) : Prop where
  dofs : ∀ pl ∈ ps, EntityDofs elements pl.2
  distinct : ∀ pl ∈ ps, ∀ pl' ∈ ps, pl.2.no = pl'.2.no → pl = pl'
  index : ∀ a b, index a = index b → a = b

omit [DecidableEq I] in
/-- Where a degree of freedom that is attached to an entity is found. -/
theorem entity_dof_iff (elements : List Elem) (index : DofName → I) (ps : List (Param × Leaf DofName F))
    (hs : EntitySpace elements index ps) (pl : Param × Leaf DofName F) (hpl : pl ∈ ps) (e : Elem) (he : e ∈ elements)
    (m : Nat) (key : LocalKey) (hm : (pl.2.keys e)[m]? = some key)
    (M : Elem → Param × Leaf DofName F → Nat → LocalKey → Prop) :
    (∃ e' ∈ elements, ∃ pl' ∈ ps, ∃ n key', (pl'.2.keys e')[n]? = some key' ∧ M e' pl' n key' ∧
      index (pl'.2.dof e' n) = index (pl.2.dof e m)) ↔
    ∃ e' ∈ elements, ∃ n s, (pl.2.keys e')[n]? = some ⟨s, key.codim, key.index⟩ ∧
      e'.sub key.codim s = e.sub key.codim key.subEntity ∧ M e' pl n ⟨s, key.codim, key.index⟩ := by
  have hd := (hs.dofs pl hpl).name e he m key hm
  constructor
  · rintro ⟨e', he', pl', hpl', n, key', hn, hM, hi⟩
    have hd' := (hs.dofs pl' hpl').name e' he' n key' hn
    have := hs.index _ _ hi
    rw [hd, hd'] at this
    simp only [Prod.mk.injEq] at this
    obtain ⟨h1, h2, h3, h4⟩ := this
    obtain rfl := hs.distinct pl' hpl' pl hpl h1
    obtain ⟨s, c, x⟩ := key'
    dsimp only at h2 h3 h4
    subst h2 h4
    exact ⟨e', he', n, s, hn, h3, hM⟩
  · rintro ⟨e', he', n, s, hn, h3, hM⟩
    refine ⟨e', he', pl, hpl, n, _, hn, hM, ?_⟩
    rw [(hs.dofs pl hpl).name e' he' n _ hn, hd, ← h3]

/-- With `ConformingDirichletConstraints` (`overlapping = false`) a degree of freedom is constrained exactly if it is attached to
a face, edge or vertex that is part of a boundary face on which the Dirichlet condition holds; with
`OverlappingConformingDirichletConstraints` also if it is part of a processor boundary. No other leaf of the space matters. -/
theorem C113_dirichlet_faces (ap : Bool) (elements : List Elem) (element : Nat → Elem) (index : DofName → I) (p : Tree Param)
    (space : Tree (Leaf DofName F)) (cg₀ cg : Trafo I F) (cls : Leaf DofName F → Class) (ps : List (Param × Leaf DofName F))
    (hcls : ∀ l ∈ space.leaves, l.cons = (cls l).cons) (hps : pairs p space = some ps)
    (hrt : ∀ e ∈ elements, ∀ i ∈ e.isects, ∀ l ∈ space.leaves, cls l = .rt0 → l.keys e ≠ [] →
      i.indexInInside < (l.keys e).length)
    (h : constraints ap elements element index p space cg₀ = some cg)
    (hs : EntitySpace elements index ps) (hf : ProperFaces elements)
    (pl : Param × Leaf DofName F) (hpl : pl ∈ ps) (overlapping : Bool)
    (hc : cls pl.2 = if overlapping then .overlapping else .conforming)
    (e : Elem) (he : e ∈ elements) (m : Nat) (key : LocalKey) (hm : (pl.2.keys e)[m]? = some key) :
    cg.Constrained (index (pl.2.dof e m)) ↔ key.codim ≠ 0 ∧ ∃ e' ∈ elements, ∃ i ∈ e'.isects,
      ((classify ap i.toIsect = .boundary ∧ pl.1.isDirichlet e' i = true) ∨
        (overlapping = true ∧ classify ap i.toIsect = .processor)) ∧
      InFace e' i.indexInInside key.codim (e.sub key.codim key.subEntity) := by
  rw [(C112_constrained_dofs ap elements element index p space cg₀ cg cls ps hcls hps hrt h).1,
    entity_dof_iff elements index ps hs pl hpl e he m key hm fun e' pl' n key' => (cls pl'.2).Marks ap pl'.1 e' n key', hc]
  have hM : ∀ e' n key', (if overlapping then Class.overlapping else .conforming).Marks ap pl.1 e' n key' ↔
      ∃ i ∈ e'.isects, ((classify ap i.toIsect = .boundary ∧ pl.1.isDirichlet e' i = true) ∨
        (overlapping = true ∧ classify ap i.toIsect = .processor)) ∧ OnFace e' i.indexInInside key' := by
    intro e' n key'
    cases overlapping
    · simp [Class.Marks, OnDirichletFace, and_assoc]
    · simp only [if_true, Class.Marks, OnDirichletFace, OnProcessorFace, true_and]
      constructor
      · rintro (⟨i, h1, h2, h3, h4⟩ | ⟨i, h1, h2, h3⟩)
        · exact ⟨i, h1, Or.inl ⟨h2, h3⟩, h4⟩
        · exact ⟨i, h1, Or.inr h2, h3⟩
      · rintro ⟨i, h1, ⟨h2, h3⟩ | h2, h4⟩
        · exact Or.inl ⟨i, h1, h2, h3, h4⟩
        · exact Or.inr ⟨i, h1, h2, h4⟩
  simp only [hM]
  constructor
  · rintro ⟨e', he', n, s, hn, h3, i, hi, hcond, h5, h6⟩
    exact ⟨h5, e', he', i, hi, hcond, s, h6, h3⟩
  · rintro ⟨h0, e', he', i, hi, hcond, s, h6, h3⟩
    have hk := (hs.dofs pl hpl).shared e he key (List.mem_of_getElem? hm) e' he' s (hf e' he' i hi _ s h6) h3
    obtain ⟨n, hn⟩ := List.getElem?_of_mem hk
    exact ⟨e', he', n, s, hn, h3, i, hi, hcond, h0, h6⟩

end C113

/-- The hypotheses of `C113_dirichlet_faces` are met by the quadratic elements on the two triangles. -/
theorem exEntityDofs (part : Partition) (no : Nat) (cons : Cons DofName Int) : EntityDofs (exElements part) (exLeaf no cons) := by
  refine ⟨?_, ?_⟩
  · intro e he i key hk
    have hi : i < 6 := by
      have := (List.getElem?_eq_some_iff.1 hk).1
      simpa [exLeaf] using this
    have : i = 0 ∨ i = 1 ∨ i = 2 ∨ i = 3 ∨ i = 4 ∨ i = 5 := by omega
    rcases this with rfl | rfl | rfl | rfl | rfl | rfl <;>
      · simp only [exLeaf, List.getElem?_cons_zero, List.getElem?_cons_succ, Option.some.injEq] at hk
        subst hk
        rfl
  · intro e _ key hkey e' _ s hs _
    have hc : (key.codim = 1 ∨ key.codim = 2) ∧ key.index = 0 := by
      simp only [exLeaf, List.mem_cons, List.not_mem_nil, or_false] at hkey
      rcases hkey with rfl | rfl | rfl | rfl | rfl | rfl <;> simp
    have hs3 : e'.numSub key.codim = 3 := by
      have : ∃ i p a b is, e' = exTriangle i p a b is := by
        have he' := ‹e' ∈ exElements part›
        simp only [exElements, List.mem_cons, List.not_mem_nil, or_false] at he'
        rcases he' with rfl | rfl <;> exact ⟨_, _, _, _, _, rfl⟩
      obtain ⟨_, _, _, _, _, rfl⟩ := this
      rcases hc.1 with h | h <;> simp [exTriangle, h]
    rw [hs3] at hs
    have : s = 0 ∨ s = 1 ∨ s = 2 := by omega
    rw [hc.2]
    rcases this with rfl | rfl | rfl <;> rcases hc.1 with h | h <;> simp [exLeaf, h]

theorem exProperFaces (part : Partition) : ProperFaces (exElements part) := by
  intro e he i hi c s hs
  simp only [exElements, List.mem_cons, List.not_mem_nil, or_false] at he
  rcases he with rfl | rfl <;>
  · have hi' : i.indexInInside < 3 := by
      simp only [exTriangle, List.mem_cons, List.not_mem_nil, or_false] at hi
      rcases hi with rfl | rfl | rfl <;> simp
    have : i.indexInInside = 0 ∨ i.indexInInside = 1 ∨ i.indexInInside = 2 := by omega
    by_cases h1 : c = 1
    · subst h1
      simp [exTriangle] at hs ⊢
      omega
    · by_cases h2 : c = 2
      · subst h2
        rcases this with h | h | h <;> simp [exTriangle, h] at hs ⊢ <;> omega
      · simp [exTriangle, h1, h2] at hs

example : EntitySpace (exElements .interior) (id : DofName → DofName) [(exParam, exLeaf 0 conformingDirichlet),
      (exParam, exLeaf 1 overlappingConformingDirichlet)] ∧ ProperFaces (exElements .interior) := by
  refine ⟨⟨?_, ?_, fun a b h => h⟩, exProperFaces _⟩
  · intro pl hpl
    simp only [List.mem_cons, List.not_mem_nil, or_false] at hpl
    rcases hpl with rfl | rfl <;> exact exEntityDofs _ _ _
  · intro pl hpl pl' hpl' h
    simp only [List.mem_cons, List.not_mem_nil, or_false] at hpl hpl'
    rcases hpl with rfl | rfl <;> rcases hpl' with rfl | rfl <;> first | rfl | (simp [exLeaf] at h)

/-! ## C114: nonoverlapping grids -/

section C114
variable {F I : Type} [DecidableEq I]

/-- The index set: each subentity has a geometry type of its codimension and an index below the size of that type. -/
def IndexSet (codimOf : List Nat) (size : Nat → Nat) (dim : Nat) (elements : List Elem) : Prop :=
  ∀ e ∈ elements, ∀ codim ≤ dim, ∀ s < e.numSub codim, (e.sub codim s).1 < codimOf.length ∧
    codimOf.getD (e.sub codim s).1 0 = codim ∧ (e.sub codim s).2 < size (e.sub codim s).1

/-- `compute_ghosts`: all accesses to the vector of flags are in range, and the flag of an entity of a codimension with degrees of
freedom is set exactly if no interior element has the entity. -/
theorem C114_compute_ghosts (dim : Nat) (codimOf : List Nat) (contains : Nat → Bool) (size : Nat → Nat) (elements : List Elem)
    (hidx : IndexSet codimOf size dim elements) (e : Elem) (he : e ∈ elements) (codim : Nat) (hd : codim ≤ dim)
    (hc : contains codim = true) (s : Nat) (hs : s < e.numSub codim) :
    let offsets := ghostOffsets codimOf contains size
    let ghosts := computeGhosts dim contains offsets elements
    let position := offsets.getD (e.sub codim s).1 0 + (e.sub codim s).2
    position < ghosts.length ∧ (ghosts.getD position false = true ↔
      ∀ e' ∈ elements, e'.partition = .interior → ¬ HasSub e' codim (e.sub codim s)) := by
  intro offsets ghosts position
  obtain ⟨a1, a2, a3⟩ := hidx e he codim hd s hs
  obtain ⟨h1, h2⟩ := computeGhosts_iff dim contains offsets elements
  have hr : position < offsets.getLastD 0 := ghostOffsets_range codimOf contains size _ a1 (by rw [a2]; exact hc) a3
  refine ⟨by rw [h1]; exact hr, ?_⟩
  rw [h2 _ hr]
  constructor
  · rintro hn e' he' hp ⟨t, ht, heq⟩
    exact hn ⟨e', he', hp, codim, hd, hc, t, ht, by rw [heq]⟩
  · rintro hn ⟨e', he', hp, c', hd', hc', t, ht, heq⟩
    obtain ⟨b1, b2, b3⟩ := hidx e' he' c' hd' t ht
    have hab := ghostOffsets_inj codimOf contains size _ _ b1 (by rw [b2]; exact hc') b3 a1 (by rw [a2]; exact hc) a3 heq
    have : c' = codim := by rw [← b2, ← a2, hab]
    subst this
    exact hn e' he' hp ⟨t, ht, hab⟩

/-- With `NonoverlappingConformingDirichletConstraints` after `compute_ghosts` a degree of freedom is constrained exactly if it is
attached to a part of a Dirichlet boundary face, or to an entity that no interior element has. -/
theorem C114_nonoverlapping (ap : Bool) (elements : List Elem) (element : Nat → Elem) (index : DofName → I) (p : Tree Param)
    (space : Tree (Leaf DofName F)) (cg₀ cg : Trafo I F) (cls : Leaf DofName F → Class) (ps : List (Param × Leaf DofName F))
    (hcls : ∀ l ∈ space.leaves, l.cons = (cls l).cons) (hps : pairs p space = some ps)
    (hrt : ∀ e ∈ elements, ∀ i ∈ e.isects, ∀ l ∈ space.leaves, cls l = .rt0 → l.keys e ≠ [] →
      i.indexInInside < (l.keys e).length)
    (h : constraints ap elements element index p space cg₀ = some cg)
    (hs : EntitySpace elements index ps) (hf : ProperFaces elements)
    (dim : Nat) (codimOf : List Nat) (contains : Nat → Bool) (size : Nat → Nat) (hidx : IndexSet codimOf size dim elements)
    (pl : Param × Leaf DofName F) (hpl : pl ∈ ps)
    (hc : cls pl.2 = .nonoverlapping (ghostOffsets codimOf contains size)
      (computeGhosts dim contains (ghostOffsets codimOf contains size) elements))
    (hkeys : ∀ e ∈ elements, ∀ key ∈ pl.2.keys e, key.codim ≤ dim ∧ contains key.codim = true ∧
      key.subEntity < e.numSub key.codim)
    (e : Elem) (he : e ∈ elements) (m : Nat) (key : LocalKey) (hm : (pl.2.keys e)[m]? = some key) :
    cg.Constrained (index (pl.2.dof e m)) ↔
      (key.codim ≠ 0 ∧ ∃ e' ∈ elements, ∃ i ∈ e'.isects, classify ap i.toIsect = .boundary ∧ pl.1.isDirichlet e' i = true ∧
        InFace e' i.indexInInside key.codim (e.sub key.codim key.subEntity)) ∨
      ∀ e' ∈ elements, e'.partition = .interior → ¬ HasSub e' key.codim (e.sub key.codim key.subEntity) := by
  rw [(C112_constrained_dofs ap elements element index p space cg₀ cg cls ps hcls hps hrt h).1,
    entity_dof_iff elements index ps hs pl hpl e he m key hm fun e' pl' n key' => (cls pl'.2).Marks ap pl'.1 e' n key', hc]
  obtain ⟨k1, k2, k3⟩ := hkeys e he key (List.mem_of_getElem? hm)
  have hg := (C114_compute_ghosts dim codimOf contains size elements hidx e he key.codim k1 k2 key.subEntity k3).2
  simp only [Class.Marks]
  constructor
  · rintro ⟨e', he', n, s, hn, h3, ⟨i, hi, hb, hD, h5, h6⟩ | ⟨hp, hG⟩⟩
    · exact Or.inl ⟨h5, e', he', i, hi, hb, hD, s, h6, h3⟩
    · right
      rw [h3] at hG
      exact hg.1 hG
  · rintro (⟨h0, e', he', i, hi, hb, hD, s, h6, h3⟩ | hn)
    · have hk := (hs.dofs pl hpl).shared e he key (List.mem_of_getElem? hm) e' he' s (hf e' he' i hi _ s h6) h3
      obtain ⟨n, hn⟩ := List.getElem?_of_mem hk
      exact ⟨e', he', n, s, hn, h3, Or.inl ⟨i, hi, hb, hD, h0, h6⟩⟩
    · exact ⟨e, he, m, key.subEntity, hm, rfl, Or.inr ⟨fun hp => hn e he hp ⟨_, k3, rfl⟩, hg.2 hn⟩⟩

end C114

/-- The two triangles, the second one a ghost: geometry types are vertices, edges, triangles. -/
theorem exIndexSet (part : Partition) : IndexSet [2, 1, 0] (fun gt => [4, 5, 2].getD gt 0) 2 (exElements part) := by
  intro e he c hc s hs
  simp only [exElements, List.mem_cons, List.not_mem_nil, or_false] at he
  have hc' : c = 0 ∨ c = 1 ∨ c = 2 := by omega
  rcases he with rfl | rfl <;> rcases hc' with rfl | rfl | rfl <;> simp only [exTriangle, if_true] at hs ⊢ <;>
    first
    | (simp; done)
    | (have : s = 0 ∨ s = 1 ∨ s = 2 := by
        simp at hs
        omega
       rcases this with rfl | rfl | rfl <;> simp)

/-- The hypotheses of `C114_nonoverlapping` about the index set and the keys are met by this grid and the quadratic elements; the
DOFs that only the ghost triangle has are the vertex 3 and the edges 3 and 4, and they are constrained in addition to those of the
Dirichlet face. -/
example : IndexSet [2, 1, 0] (fun gt => [4, 5, 2].getD gt 0) 2 (exElements .ghost) ∧
    ProperFaces (exElements .ghost) ∧
    (∀ e ∈ exElements .ghost, ∀ key ∈ (exLeaf 0 conformingDirichlet).keys e, key.codim ≤ 2 ∧
      (fun c => decide (c = 1 ∨ c = 2)) key.codim = true ∧ key.subEntity < e.numSub key.codim) ∧
    (let offsets := ghostOffsets [2, 1, 0] (fun c => c = 1 ∨ c = 2) fun gt => [4, 5, 2].getD gt 0
     let ghosts := computeGhosts 2 (fun c => c = 1 ∨ c = 2) offsets (exElements .ghost)
     (constraints true (exElements .ghost) (exElement .ghost) id (.leaf exParam)
        (.leaf (exLeaf 0 (nonoverlappingConformingDirichlet offsets ghosts))) Trafo.empty).map fun cg => cg.rows.map Prod.fst)
      = some [(0, 2, (0, 0), 0), (0, 2, (0, 1), 0), (0, 1, (1, 0), 0), (0, 2, (0, 3), 0), (0, 1, (1, 3), 0),
          (0, 1, (1, 4), 0)] := by
  refine ⟨exIndexSet _, exProperFaces _, by decide, by decide +kernel⟩

/-! ## C115: RT0 and interior nodes -/

section C115
variable {F I : Type} [DecidableEq I]

/-- With `RT0Constraints`, where the finite element has one degree of freedom for each face in the order of the faces, exactly the
degrees of freedom of the boundary faces with a Neumann condition are constrained. -/
theorem C115_rt0 (ap : Bool) (elements : List Elem) (element : Nat → Elem) (index : DofName → I) (p : Tree Param)
    (space : Tree (Leaf DofName F)) (cg₀ cg : Trafo I F) (cls : Leaf DofName F → Class) (ps : List (Param × Leaf DofName F))
    (hcls : ∀ l ∈ space.leaves, l.cons = (cls l).cons) (hps : pairs p space = some ps)
    (hrt : ∀ e ∈ elements, ∀ i ∈ e.isects, ∀ l ∈ space.leaves, cls l = .rt0 → l.keys e ≠ [] →
      i.indexInInside < (l.keys e).length)
    (h : constraints ap elements element index p space cg₀ = some cg)
    (hs : EntitySpace elements index ps)
    (hin : ∀ e ∈ elements, ∀ i ∈ e.isects, i.indexInInside < e.numSub 1)
    (pl : Param × Leaf DofName F) (hpl : pl ∈ ps) (hc : cls pl.2 = .rt0)
    (hkeys : ∀ e ∈ elements, pl.2.keys e = (List.range (e.numSub 1)).map fun f => ⟨f, 1, 0⟩)
    (e : Elem) (he : e ∈ elements) (m : Nat) (hm : m < e.numSub 1) :
    cg.Constrained (index (pl.2.dof e m)) ↔ ∃ e' ∈ elements, ∃ i ∈ e'.isects, classify ap i.toIsect = .boundary ∧
      pl.1.isNeumann e' i = true ∧ e'.sub 1 i.indexInInside = e.sub 1 m := by
  have hk : (pl.2.keys e)[m]? = some ⟨m, 1, 0⟩ := by
    rw [hkeys e he, List.getElem?_map, List.getElem?_range hm]; rfl
  rw [(C112_constrained_dofs ap elements element index p space cg₀ cg cls ps hcls hps hrt h).1,
    entity_dof_iff elements index ps hs pl hpl e he m ⟨m, 1, 0⟩ hk fun e' pl' n key' => (cls pl'.2).Marks ap pl'.1 e' n key', hc]
  simp only [Class.Marks]
  constructor
  · rintro ⟨e', he', n, s, hn, h3, i, hi, hb, hN, hin'⟩
    refine ⟨e', he', i, hi, hb, hN, ?_⟩
    rw [hkeys e' he', List.getElem?_map] at hn
    have hlt : n < e'.numSub 1 := by rw [← hin']; exact hin e' he' i hi
    rw [List.getElem?_range hlt] at hn
    simp only [Option.map_some, Option.some.injEq, LocalKey.mk.injEq, and_true] at hn
    rw [hin', hn]
    exact h3
  · rintro ⟨e', he', i, hi, hb, hN, h3⟩
    refine ⟨e', he', i.indexInInside, i.indexInInside, ?_, h3, i, hi, hb, hN, rfl⟩
    rw [hkeys e' he', List.getElem?_map, List.getElem?_range (hin e' he' i hi)]; rfl

/-- `InteriorNodeConstraints` after `updateInteriorNodes`, with degrees of freedom at vertices: exactly the degrees of freedom of the
vertices that lie on no boundary face are constrained. -/
theorem C115_interior_nodes (ap : Bool) (elements : List Elem) (element : Nat → Elem) (index : DofName → I) (p : Tree Param)
    (space : Tree (Leaf DofName F)) (cg₀ cg : Trafo I F) (cls : Leaf DofName F → Class) (ps : List (Param × Leaf DofName F))
    (hcls : ∀ l ∈ space.leaves, l.cons = (cls l).cons) (hps : pairs p space = some ps)
    (hrt : ∀ e ∈ elements, ∀ i ∈ e.isects, ∀ l ∈ space.leaves, cls l = .rt0 → l.keys e ≠ [] →
      i.indexInInside < (l.keys e).length)
    (h : constraints ap elements element index p space cg₀ = some cg)
    (hs : EntitySpace elements index ps) (dim n gt : Nat)
    (hsize : ∀ e ∈ elements, ∀ s < e.numSub dim, (e.sub dim s).1 = gt ∧ (e.sub dim s).2 < n)
    (hf : ProperFaces elements)
    (pl : Param × Leaf DofName F) (hpl : pl ∈ ps) (hc : cls pl.2 = .interiorNode (updateInteriorNodes dim n elements))
    (hkeys : ∀ e ∈ elements, ∀ key ∈ pl.2.keys e, key.codim = dim ∧ key.subEntity < e.numSub dim)
    (e : Elem) (he : e ∈ elements) (m : Nat) (key : LocalKey) (hm : (pl.2.keys e)[m]? = some key) :
    cg.Constrained (index (pl.2.dof e m)) ↔ ∀ e' ∈ elements, ∀ i ∈ e'.isects, i.boundary = true →
      ¬ InFace e' i.indexInInside dim (e.sub dim key.subEntity) := by
  rw [(C112_constrained_dofs ap elements element index p space cg₀ cg cls ps hcls hps hrt h).1,
    entity_dof_iff elements index ps hs pl hpl e he m key hm fun e' pl' n key' => (cls pl'.2).Marks ap pl'.1 e' n key', hc]
  obtain ⟨k1, k2⟩ := hkeys e he key (List.mem_of_getElem? hm)
  simp only [Class.Marks, k1]
  obtain ⟨g1, g2⟩ := hsize e he key.subEntity k2
  have hiff : (updateInteriorNodes dim n elements).getD (e.sub dim key.subEntity).2 false = true ↔
      ∀ e' ∈ elements, ∀ i ∈ e'.isects, i.boundary = true → ¬ InFace e' i.indexInInside dim (e.sub dim key.subEntity) := by
    rw [(updateInteriorNodes_iff dim n elements).2 _ g2]
    constructor
    · rintro hn e' he' i hi hb ⟨s, hs1, hs2⟩
      exact hn ⟨e', he', i, hi, hb, s, hs1, by rw [hs2]⟩
    · rintro hn ⟨e', he', i, hi, hb, s, hs1, hs2⟩
      refine hn e' he' i hi hb ⟨s, hs1, Prod.ext ?_ hs2⟩
      rw [(hsize e' he' s (hf e' he' i hi _ s hs1)).1, g1]
  constructor
  · rintro ⟨e', he', n', s, hn, h3, hG⟩
    rw [h3] at hG
    exact hiff.1 hG
  · intro hn
    refine ⟨e, he, m, key.subEntity, ?_, rfl, hiff.2 hn⟩
    rw [hm, ← k1]

end C115

/-- Lowest order Raviart-Thomas elements and linear elements on the two triangles. -/
def exFaceLeaf (cons : Cons DofName Int) : Leaf DofName Int :=
  ⟨0, fun e => (List.range (e.numSub 1)).map fun f => ⟨f, 1, 0⟩, fun e i => (0, 1, e.sub 1 i, 0), cons⟩

def exVertexLeaf (cons : Cons DofName Int) : Leaf DofName Int :=
  ⟨1, fun e => (List.range (e.numSub 2)).map fun f => ⟨f, 2, 0⟩, fun e i => (1, 2, e.sub 2 i, 0), cons⟩

/-- Both leaves name their degrees of freedom by entities, as `C115_rt0` and `C115_interior_nodes` ask. -/
theorem exCodimDofs (no c : Nat) (cons : Cons DofName Int) : EntityDofs (exElements .interior)
    ⟨no, fun e => (List.range (e.numSub c)).map fun f => ⟨f, c, 0⟩, fun e i => (no, c, e.sub c i, 0), cons⟩ := by
  refine ⟨?_, ?_⟩
  · intro e _ i key hk
    simp only [List.getElem?_map, Option.map_eq_some_iff] at hk
    obtain ⟨a, ha, rfl⟩ := hk
    have := List.getElem?_eq_some_iff.1 ha
    obtain ⟨h1, h2⟩ := this
    simp at h2
    subst h2
    rfl
  · intro e _ key hk e' _ s hs _
    simp only [List.mem_map, List.mem_range] at hk ⊢
    obtain ⟨a, _, rfl⟩ := hk
    exact ⟨s, hs, rfl⟩

example : EntitySpace (exElements .interior) (id : DofName → DofName) [(fluxFromDirichlet exParam, exFaceLeaf ConsAsm.rt0),
      (exParam, exVertexLeaf (ConsAsm.interiorNode (updateInteriorNodes 2 4 (exElements .interior))))] ∧
    (∀ e ∈ exElements .interior, ∀ i ∈ e.isects, i.indexInInside < e.numSub 1) ∧
    (∀ e ∈ exElements .interior, ∀ s < e.numSub 2, (e.sub 2 s).1 = 0 ∧ (e.sub 2 s).2 < 4) := by
  refine ⟨⟨?_, ?_, fun a b h => h⟩, by decide, by decide⟩
  · intro pl hpl
    simp only [List.mem_cons, List.not_mem_nil, or_false] at hpl
    rcases hpl with rfl | rfl
    · exact exCodimDofs 0 1 _
    · exact exCodimDofs 1 2 _
  · intro pl hpl pl' hpl' h
    simp only [List.mem_cons, List.not_mem_nil, or_false] at hpl hpl'
    rcases hpl with rfl | rfl <;> rcases hpl' with rfl | rfl <;> first | rfl | (simp [exFaceLeaf, exVertexLeaf] at h)

/-- Of the edges those of the boundary faces without Dirichlet condition are constrained. -/
example : ((constraints true (exElements .interior) (exElement .interior) id (.leaf (fluxFromDirichlet exParam))
      (.leaf (exFaceLeaf ConsAsm.rt0)) Trafo.empty).map fun cg => cg.rows.map Prod.fst)
    = some [(0, 1, (1, 1), 0), (0, 1, (1, 3), 0), (0, 1, (1, 4), 0)] := by decide +kernel

/-! ## C116: the parameters of a leaf space -/

/-- The constraints of each leaf of the tree of spaces are computed with the parameters found on the same path in the tree of
parameters, where a leaf of the tree of parameters serves the whole subtree; all leaf spaces are visited, in order. -/
theorem C116_parameters_of_leaves {P L : Type} (p : Tree P) (space : Tree L) (ps : List (P × L))
    (h : pairs p space = some ps) :
    ps.map Prod.snd = space.leaves ∧ ps.map (fun x => some x.1) = (paths space).map (lookup p) ∧
      (paths space).map (lookup space) = space.leaves.map some :=
  ⟨pairs_snd p space ps h, pairs_lookup p space ps h, paths_lookup space⟩

/-- A grid function in place of parameters: at a leaf function with one component the Dirichlet condition holds where it is positive
(a Neumann condition where it vanishes); a leaf function with several components gives its component `i` to the child `i` of the
space at that place. -/
theorem C116_functions_as_parameters (f : Tree GridFunction) (path : List Nat) (hp : path ∈ paths f) (g : GridFunction)
    (hg : lookup f path = some g) :
    (g.dimRange = 1 → ∃ q, lookup (gfToConstraints f) path = some q ∧
      ∀ e i, (q.isDirichlet e i = true ↔ 0 < g.value e i 0) ∧ (q.isNeumann e i = true ↔ g.value e i 0 = 0)) ∧
    (g.dimRange ≠ 1 → ∀ c < g.dimRange, ∀ rest, ∃ q, lookup (gfToConstraints f) (path ++ c :: rest) = some q ∧
      ∀ e i, (q.isDirichlet e i = true ↔ 0 < g.value e i c) ∧ (q.isNeumann e i = true ↔ g.value e i c = 0)) := by
  constructor
  · intro h1
    refine ⟨oldStyle g 0, ?_, fun e i => ⟨by simp [oldStyle], by simp [oldStyle]⟩⟩
    have := gfToConstraints_lookup f path [] g hp hg
    rw [List.append_nil] at this
    rw [this]
    simp [gfToConstraints, h1, lookup]
  · intro h1 c hc rest
    refine ⟨oldStyle g c, ?_, fun e i => ⟨by simp [oldStyle], by simp [oldStyle]⟩⟩
    rw [gfToConstraints_lookup f path (c :: rest) g hp hg]
    rw [gfToConstraints, if_neg h1, lookup_node _ _ _ (.leaf (oldStyle g c)), lookup_leaf]
    rw [List.getElem?_map, List.getElem?_range hc]; rfl

/-- The adapters: a Neumann condition where there is no Dirichlet condition, and the other way round; the remaining predicate is
that of the adapted parameters. -/
theorem C116_adapters (p : Param) (e : Elem) (i : CIsect) :
    ((fluxFromDirichlet p).isDirichlet e i = p.isDirichlet e i ∧
      ((fluxFromDirichlet p).isNeumann e i = true ↔ ¬ p.isDirichlet e i = true)) ∧
    ((dirichletFromFlux p).isNeumann e i = p.isNeumann e i ∧
      ((dirichletFromFlux p).isDirichlet e i = true ↔ ¬ p.isNeumann e i = true)) ∧
    (dirichletParameters.isDirichlet e i = true ∧ dirichletParameters.isNeumann e i = false) ∧
    (noDirichletParameters.isDirichlet e i = false ∧ noDirichletParameters.isNeumann e i = true) := by
  simp [fluxFromDirichlet, dirichletFromFlux, dirichletParameters, noDirichletParameters]

/-- A Taylor-Hood tree: velocities with components, and a pressure. -/
example : pairs (.node [.leaf 'a', .leaf 'b']) (.node [.node [.leaf 0, .leaf 1, .leaf 2], .leaf 3])
    = some [('a', 0), ('a', 1), ('a', 2), ('b', 3)] := by rfl

example : let f : Tree GridFunction := .node [.leaf ⟨2, fun e _ i => if e.id = i then 1 else 0⟩, .leaf ⟨1, fun _ _ _ => 0⟩]
    [0] ∈ paths f ∧ [1] ∈ paths f ∧ (lookup f [0]).isSome := by
  refine ⟨by simp [paths, pathsList], by simp [paths, pathsList], rfl⟩

end Verif
