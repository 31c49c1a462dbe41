import Verif.Proofs.EntitySet
/-
C45, C46, C47, C83: element mappers, border caches and entity sets.
-/
namespace Verif

open EntitySet EntitySet.Spec

/-! ### C45: element mappers -/

/-- C45: whatever types the elements have and whatever the offsets were before, the mapper numbers all elements (given by type and index)
from zero to their number. -/
theorem C45_element_mapper (nTypes : Nat) (types : List Nat) (hnd : types.Nodup) (hlt : ∀ t ∈ types, t < nTypes) (size : Nat → Nat)
    (offsets : List Nat) (hlen : offsets.length = nTypes + 1) :
    Enumerates (fun x : Nat × Nat => x.1 ∈ types ∧ x.2 < size x.1) (fun x => some (mapperMap (mapperUpdate types size offsets) x.1 x.2))
      (types.map size).sum ∧
    Enumerates (fun x : Nat × Nat => x.1 ∈ types ∧ x.2 < size x.1) (fun x => some (mapperMap (mapperInit nTypes types size) x.1 x.2))
      (types.map size).sum := by
  have hmain : ∀ o : List Nat, o.length = nTypes + 1 →
      Enumerates (fun x : Nat × Nat => x.1 ∈ types ∧ x.2 < size x.1) (fun x => some (mapperMap (mapperUpdate types size o) x.1 x.2))
        (types.map size).sum := by
    intro o ho
    have hoff : ∀ t, t ≤ nTypes → (mapperUpdate types size o).getD t 0 = sumTo (fun t => if t ∈ types then size t else 0) t := by
      intro t ht
      unfold mapperUpdate
      refine offsets_getD _ _ nTypes ?_ ?_ ?_ t ht
      · rw [(foldl_set_getD size _ _ 0).1]; simpa using ho
      · rw [(foldl_set_getD size _ _ 0).2]; simp
      · intro t ht
        rw [(foldl_set_getD size _ _ (t + 1)).2, getD_map_zero]
        have : t + 1 < (o.map fun _ => 0).length := by simp [ho]; omega
        simp only [this, and_true, Nat.add_sub_cancel]
        have hiff : (∃ t' ∈ types, t' + 1 = t + 1) ↔ t ∈ types := by
          constructor
          · rintro ⟨t', h, h'⟩; obtain rfl : t' = t := by omega
            exact h
          · intro h; exact ⟨t, h, rfl⟩
        simp only [hiff]
    have hen : Enumerates (fun x : Nat × Nat => x.1 ∈ types ∧ x.2 < size x.1)
        (fun x => some (mapperMap (mapperUpdate types size o) x.1 x.2)) (sumTo (fun t => if t ∈ types then size t else 0) nTypes) := by
      refine ⟨?_, ?_, ?_⟩
      · rintro ⟨t, i⟩ ⟨ht, hi⟩
        refine ⟨_, ?_, rfl⟩
        simp only [mapperMap]
        rw [hoff t (Nat.le_of_lt (hlt t ht))]
        exact sumTo_lt _ (hlt t ht) (by simpa [ht] using hi)
      · rintro ⟨t, i⟩ ⟨t', i'⟩ ⟨ht, hi⟩ ⟨ht', hi'⟩ heq
        simp only [mapperMap, Option.some.injEq] at heq
        rw [hoff t (Nat.le_of_lt (hlt t ht)), hoff t' (Nat.le_of_lt (hlt t' ht'))] at heq
        obtain ⟨h1, h2⟩ := sumTo_inj _ (by simpa [ht] using hi) (by simpa [ht'] using hi') heq
        rw [h1, h2]
      · intro k hk
        obtain ⟨t, i, h1, h2, h3⟩ := sumTo_onto _ _ k hk
        by_cases ht : t ∈ types
        · refine ⟨(t, i), ⟨ht, by simpa [ht] using h2⟩, ?_⟩
          simp only [mapperMap]
          rw [hoff t (Nat.le_of_lt h1), h3]
        · simp [ht] at h2
    have hnum : (types.map size).sum = sumTo (fun t => if t ∈ types then size t else 0) nTypes := by
      rw [← enumerates_length _ _ _ hen (types.flatMap fun t => (List.range (size t)).map fun i => (t, i))]
      · simp [List.length_flatMap]
      · rw [List.nodup_flatMap]
        constructor
        · intro t _
          exact List.nodup_range.map fun a b h => by simpa using h
        · refine hnd.pairwise_of_forall_ne ?_
          intro t _ t' _ hne x hx hx'
          simp only [List.mem_map] at hx hx'
          obtain ⟨i, _, rfl⟩ := hx
          obtain ⟨i', _, h⟩ := hx'
          exact hne (by simpa using (Prod.mk.injEq .. ▸ h : _ ∧ _).1.symm)
      · rintro ⟨t, i⟩
        simp only [List.mem_flatMap, List.mem_map, List.mem_range, Prod.mk.injEq]
        constructor
        · rintro ⟨t', ht', i', hi', rfl, rfl⟩; exact ⟨ht', hi'⟩
        · rintro ⟨ht, hi⟩; exact ⟨t, ht, i, hi, rfl, rfl⟩
    rw [hnum]
    exact hen
  exact ⟨hmain offsets hlen, hmain _ (by simp)⟩

/-- Triangles (type 0) and quadrilaterals (type 2): the quadrilaterals come after the triangles. -/
example : (mapperMap (mapperInit 3 [2, 0] (fun t => 2 + t)) 0 1, mapperMap (mapperInit 3 [2, 0] (fun t => 2 + t)) 2 3) = (1, 5) := by
  decide

/-! ### C47: index sets of entity sets -/

/-- C47: in every history of an entity set with entity iterators (or for partitions that consist of the sub-entities of their elements) on
grids that may change, an update that is needed or enforced yields the numbering for exactly the codimensions that are wanted. -/
theorem C47_update (n dim : Nat) (P : Part → Bool) (iterators : Bool) (codims : Nat → Bool) (offsets mapped : List Nat)
    (ho : offsets.length = n + 1) (hm : mapped.length = n + 1) (ops : List Op) (s : State)
    (hs : s = run dim (fun g f s => (update g P iterators f s).1) codims offsets mapped ops)
    (g : Grid) (hg : WF g) (hn : g.nTypes = n) (hcl : iterators = false → Closed g P) (force : Bool) (hf : (s.needsUpdate || force) = true)
    (s' : State) (hs' : s' = (update g P iterators force s).1) :
    s'.needsUpdate = false ∧ s'.wanted = s.wanted ∧ s'.active = s.wanted ∧
      Numbered g P s.wanted s'.perCodim s'.sizeOfType (s'.sizeOfCodim g) (s'.index P) (s'.uniqueIndex P) := by
  obtain ⟨h1, h2, _⟩ := run_inv dim n _ (updates_part n P iterators) codims offsets mapped ho hm ops s hs
  have hsh := update_shape g P iterators force s
  refine ⟨?_, ?_, ?_, update_numbered g hg P iterators force s hcl hf (by rw [hn]; exact h1) (by rw [hn]; exact h2) s' hs'⟩
  · rw [hs']; exact (hsh.2.2.2.2 hf).1
  · rw [hs']; exact hsh.2.2.1
  · rw [hs']; exact (hsh.2.2.2.2 hf).2

/-- C47, entity sets of all partitions. -/
theorem C47_update_all (n dim : Nat) (codims : Nat → Bool) (offsets mapped : List Nat)
    (ho : offsets.length = n + 1) (hm : mapped.length = n + 1) (ops : List Op) (s : State)
    (hs : s = run dim (fun g f s => (updateAll g f s).1) codims offsets mapped ops)
    (g : Grid) (hg : WF g) (hn : g.nTypes = n) (force : Bool) (hf : (s.needsUpdate || force) = true)
    (s' : State) (hs' : s' = (updateAll g force s).1) :
    s'.needsUpdate = false ∧ s'.wanted = s.wanted ∧ s'.active = s.wanted ∧
      Numbered g (fun _ => true) s.wanted s'.perCodim s'.sizeOfType (s'.sizeOfCodim g) s'.indexAll s'.uniqueIndexAll := by
  obtain ⟨h1, h2, _⟩ := run_inv dim n _ (updates_all n) codims offsets mapped ho hm ops s hs
  have hsh := updateAll_shape g force s
  refine ⟨?_, ?_, ?_, updateAll_numbered g hg force s hf (by rw [hn]; exact h1) (by rw [hn]; exact h2) s' hs'⟩
  · rw [hs']; exact (hsh.2.2.2.2 hf).1
  · rw [hs']; exact hsh.2.2.1
  · rw [hs']; exact (hsh.2.2.2.2 hf).2

/-- C47: `needsUpdate()` is false only if the active codimensions are the wanted ones, in all histories on any grids of the dimension. -/
theorem C47_needsUpdate (n dim : Nat) (P : Part → Bool) (iterators all : Bool) (codims : Nat → Bool) (offsets mapped : List Nat)
    (ho : offsets.length = n + 1) (hm : mapped.length = n + 1) (ops : List Op) (s : State)
    (hs : s = run dim (fun g f s => if all then (updateAll g f s).1 else (update g P iterators f s).1) codims offsets mapped ops)
    (hn : s.needsUpdate = false) : ∀ c, c ≤ dim → s.active c = s.wanted c := by
  cases all
  · exact (run_inv dim n _ (updates_part n P iterators) codims offsets mapped ho hm ops s hs).2.2 hn
  · exact (run_inv dim n _ (updates_all n) codims offsets mapped ho hm ops s hs).2.2 hn

/-- C47: if the grid does not change, the index set is right whenever `needsUpdate()` is false, in all histories. -/
theorem C47_current (g : Grid) (hg : WF g) (P : Part → Bool) (iterators : Bool) (hcl : iterators = false → Closed g P)
    (codims : Nat → Bool) (offsets mapped : List Nat) (ho : offsets.length = g.nTypes + 1) (hm : mapped.length = g.nTypes + 1)
    (ops : List Op) (hops : ∀ g' ∈ grids ops, g' = g) (s : State)
    (hs : s = run g.dim (fun g f s => (update g P iterators f s).1) codims offsets mapped ops) (hn : s.needsUpdate = false) :
    Numbered g P s.wanted s.perCodim s.sizeOfType (s.sizeOfCodim g) (s.index P) (s.uniqueIndex P) := by
  have := run_current g _ (updates_part g.nTypes P iterators) codims offsets mapped ho hm ops hops
    (fun mask s => Numbered g P mask s.perCodim s.sizeOfType (s.sizeOfCodim g)
      (State.index P { s with needsUpdate := false }) (State.uniqueIndex P { s with needsUpdate := false }))
    (by
      intro f s h1 h2 hf
      have hnu := ((update_shape g P iterators f s).2.2.2.2 hf).1
      have h := update_numbered g hg P iterators f s hcl hf h1 h2 _ rfl
      have hse : ({ (update g P iterators f s).1 with needsUpdate := false } : State) = (update g P iterators f s).1 := by
        rw [← hnu]
      rw [hse]
      exact h)
    (by intro mask s w a h; exact h)
    (by intro mask mask' s hc h; exact numbered_congr g P mask mask' hc _ _ _ _ _ h) s hs hn
  have hse : ({ s with needsUpdate := false } : State) = s := by rw [← hn]
  rw [hse] at this
  exact this

/-- C47, entity sets of all partitions. -/
theorem C47_current_all (g : Grid) (hg : WF g) (codims : Nat → Bool) (offsets mapped : List Nat) (ho : offsets.length = g.nTypes + 1)
    (hm : mapped.length = g.nTypes + 1) (ops : List Op) (hops : ∀ g' ∈ grids ops, g' = g) (s : State)
    (hs : s = run g.dim (fun g f s => (updateAll g f s).1) codims offsets mapped ops) (hn : s.needsUpdate = false) :
    Numbered g (fun _ => true) s.wanted s.perCodim s.sizeOfType (s.sizeOfCodim g) s.indexAll s.uniqueIndexAll := by
  exact run_current g _ (updates_all g.nTypes) codims offsets mapped ho hm ops hops
    (fun mask s => Numbered g (fun _ => true) mask s.perCodim s.sizeOfType (s.sizeOfCodim g) s.indexAll s.uniqueIndexAll)
    (by intro f s h1 h2 hf; exact updateAll_numbered g hg f s hf h1 h2 _ rfl)
    (by intro mask s w a h; exact h)
    (by intro mask mask' s hc h; exact numbered_congr g _ mask mask' hc _ _ _ _ _ h) s hs hn

/-- C47: an update leaves nothing of the history: the state is the one of a new entity set for the codimensions that are wanted. -/
theorem C47_no_residue (n dim : Nat) (P : Part → Bool) (iterators : Bool) (codims : Nat → Bool) (offsets mapped : List Nat)
    (ho : offsets.length = n + 1) (hm : mapped.length = n + 1) (ops : List Op) (s : State)
    (hs : s = run dim (fun g f s => (update g P iterators f s).1) codims offsets mapped ops)
    (g : Grid) (force : Bool) (hf : (s.needsUpdate || force) = true) (offsets' mapped' : List Nat)
    (ho' : offsets'.length = n + 1) (hm' : mapped'.length = n + 1) :
    update g P iterators force s = update g P iterators false (State.construct s.wanted offsets' mapped') := by
  obtain ⟨h1, h2, _⟩ := run_inv dim n _ (updates_part n P iterators) codims offsets mapped ho hm ops s hs
  exact update_fresh g P iterators force false s _ hf rfl rfl (h1.trans ho'.symm) (h2.trans hm'.symm)

/-- Three intervals, the last one is not of the process; vertices have type 0, intervals type 1. -/
def EntitySet.line : Grid where
  dim := 1
  nTypes := 2
  offset := fun d => d
  dimOf := fun t => t
  types := fun c => [1 - c]
  size := fun t => if t = 0 then 4 else 3
  entities := fun c =>
    if c = 0 then [⟨1, 0, .interior, 10⟩, ⟨1, 1, .interior, 11⟩, ⟨1, 2, .overlap, 12⟩]
    else if c = 1 then [⟨0, 3, .overlap, 23⟩, ⟨0, 0, .interior, 20⟩, ⟨0, 1, .interior, 21⟩, ⟨0, 2, .border, 22⟩]
    else []
  sub := fun e c => if c = 0 then [(1, e.index)] else if c = 1 then [(0, e.index), (0, e.index + 1)] else []

/-- The partitions `Partitions::interiorBorder`. -/
def EntitySet.interiorBorder : Part → Bool
  | .interior => true
  | .border => true
  | _ => false

theorem EntitySet.line_WF : WF EntitySet.line where
  offsetZero := rfl
  offsetTop := rfl
  offsetMono := by intro d _; exact Nat.le_succ d
  typesNodup := by decide
  typesRange := by decide
  typesDim := by decide
  entType := by decide
  entBound := by decide
  entOnto := by
    intro c hc t ht i hi
    have h : ∀ c, c ≤ 1 → ∀ t ∈ EntitySet.line.types c, ∀ i, i < 4 → i < EntitySet.line.size t →
      ∃ e ∈ EntitySet.line.entities c, e.gt = t ∧ e.index = i := by decide
    refine h c hc t ht i ?_ hi
    simp only [EntitySet.line] at hi
    split at hi <;> omega
  entInj := by decide
  entNodup := by decide

example : WF line ∧ Closed line interiorBorder ∧ UniqueIds line :=
  ⟨line_WF, ⟨by decide, by decide⟩, by unfold UniqueIds; decide⟩

/-- A history with both codimensions, then vertices only. -/
example :
    let upd := fun g f s => (update g interiorBorder true f s).1
    let s := run 1 upd (fun c => c == 0) [7, 7, 7] [9, 9, 9] [.add 1, .update line false, .remove 0, .update line false]
    s.needsUpdate = false ∧ s.sizeOfCodim line 1 = 3 ∧ s.sizeOfCodim line 0 = 0 ∧
      (line.entities 1).map (s.index interiorBorder) = [none, some 0, some 1, some 2] ∧
      (line.entities 0).map (s.index interiorBorder) = [none, none, none] := by
  decide

/-- C47, negated for grids without entity iterators: for the interior partition alone, the border vertex is counted and numbered, too. -/
theorem C47_fallback_false :
    ∃ (g : Grid) (P : Part → Bool), WF g ∧ P .interior = true ∧ (∀ p, p ≠ .interior → P p = false) ∧
      let s := (update g P false true (State.construct (fun _ => true) [0, 0, 0] [0, 0, 0])).1
      ¬ Numbered g P s.wanted s.perCodim s.sizeOfType (s.sizeOfCodim g) (s.index P) (s.uniqueIndex P) ∧
      s.sizeOfCodim g 1 = 3 ∧ ((g.entities 1).filter fun e => P e.part).length = 2 := by
  refine ⟨line, fun p => p == .interior, line_WF, rfl, by intro p hp; simpa using hp, ?_⟩
  refine ⟨?_, by decide, by decide⟩
  intro h
  have := h.perCodim 1 (Nat.le_refl _)
  revert this
  decide

/-! ### C83: membership -/

/-- C83, for the active codimensions: `contains` tells whether the entity belongs to the entity set. -/
theorem C83_contains_partial (g : Grid) (P : Part → Bool) (s : State) (c : Nat) (hc : c ≤ g.dim) (ha : s.active c = true) (e : Ent)
    (he : e ∈ g.entities c) : s.contains P e = true ↔ Member g P s.active e := by
  constructor
  · intro h; exact ⟨c, hc, ha, he, h⟩
  · rintro ⟨c', hc', _, he', hP⟩; exact hP

/-- C83, negated: entities of a codimension that is not active are reported as contained, but have no index. -/
theorem C83_contains_false :
    ∃ (g : Grid) (e : Ent), WF g ∧ e ∈ g.entities 0 ∧
      let s := run g.dim (fun g f s => (update g interiorBorder true f s).1) (fun _ => true) [0, 0, 0] [0, 0, 0]
        [.update g false, .remove 0, .update g false]
      s.needsUpdate = false ∧ s.active 0 = false ∧ s.contains interiorBorder e = true ∧ s.index interiorBorder e = none :=
  ⟨line, ⟨1, 0, .interior, 10⟩, line_WF, by decide, by decide⟩

example : ∃ s : State, s.active 1 = true ∧ (⟨0, 2, .border, 22⟩ : Ent) ∈ line.entities 1 ∧ s.contains interiorBorder ⟨0, 2, .border, 22⟩ = true :=
  ⟨(update line interiorBorder true true (State.construct (fun _ => true) [0, 0, 0] [0, 0, 0])).1, by decide, by decide, by decide⟩

/-! ### C46: caches of border entities -/

/-- C46, all histories: after an update every border entity of a used codimension is found by its index and its id, which are mapped to
each other; ids of indices are those of border entities only; interior entities are not reported as border entities. -/
theorem C46_update_partial (history : List (Grid × (Nat → Bool))) (g : Grid) (hg : WF g) (hid : UniqueIds g) (used : Nat → Bool) (c : Cache)
    (hc : c = (history.foldl (fun c h => c.update h.1 h.2) Cache.empty).update g used) :
    (∀ e, Border g used e → c.id e.gt e.index = some e.id ∧ c.findIndex e.id = some (e.gt, e.index) ∧ c.isBorderEntity e.gt e.index = true) ∧
    (∀ k, 1 ≤ k → k ≤ g.dim → used k = true → ∀ t ∈ g.types k, ∀ i x,
      c.id t i = some x ↔ ∃ e, Border g used e ∧ e.gt = t ∧ e.index = i ∧ e.id = x) ∧
    (∀ k, 1 ≤ k → k ≤ g.dim → used k = true → ∀ e ∈ g.entities k, e.part = .interior → c.isBorderEntity e.gt e.index = false) := by
  obtain ⟨h1, h2, _, h4, _, _⟩ := cache_spec g hg hid used _ c hc
  refine ⟨h1, ?_, ?_⟩
  · intro k hk1 hk2 hu t ht i x
    constructor
    · intro h
      by_cases hex : ∃ e, Border g used e ∧ (e.gt, e.index) = (t, i)
      · obtain ⟨e, hb, he⟩ := hex
        rw [Prod.mk.injEq] at he
        refine ⟨e, hb, he.1, he.2, ?_⟩
        have := (h1 e hb).1
        rw [he.1, he.2, h] at this
        exact (Option.some.inj this).symm
      · rw [h2 t i (fun e hb he => hex ⟨e, hb, he⟩), if_pos ((mem_usedTypes g used t).2 ⟨k, hk1, hk2, hu, ht⟩)] at h
        cases h
    · rintro ⟨e, hb, rfl, rfl, rfl⟩
      exact (h1 e hb).1
  · intro k hk1 hk2 hu e he hp
    exact h4 e ((mem_visited g used e).2 ⟨k, hk1, hk2, hu, he, Or.inl hp⟩) hp

/-- C46, new caches: after the first update all tables contain exactly the border entities of the used codimensions. -/
theorem C46_fresh_partial (g : Grid) (hg : WF g) (hid : UniqueIds g) (used : Nat → Bool) (c : Cache) (hc : c = Cache.empty.update g used) :
    (∀ t i x, c.id t i = some x ↔ ∃ e, Border g used e ∧ e.gt = t ∧ e.index = i ∧ e.id = x) ∧
    (∀ t i x, c.findIndex x = some (t, i) ↔ ∃ e, Border g used e ∧ e.gt = t ∧ e.index = i ∧ e.id = x) ∧
    (∀ t i x, c.id t i = some x ↔ c.findIndex x = some (t, i)) ∧
    (∀ t i, c.isBorderEntity t i = true ↔ ∃ e, Border g used e ∧ e.gt = t ∧ e.index = i) := by
  obtain ⟨h1, h2, h3, h4, h5, _⟩ := cache_spec g hg hid used _ c hc
  have hA : ∀ t i x, c.id t i = some x ↔ ∃ e, Border g used e ∧ e.gt = t ∧ e.index = i ∧ e.id = x := by
    intro t i x
    constructor
    · intro h
      by_cases hex : ∃ e, Border g used e ∧ (e.gt, e.index) = (t, i)
      · obtain ⟨e, hb, he⟩ := hex
        rw [Prod.mk.injEq] at he
        refine ⟨e, hb, he.1, he.2, ?_⟩
        have := (h1 e hb).1
        rw [he.1, he.2, h] at this
        exact (Option.some.inj this).symm
      · rw [h2 t i (fun e hb he => hex ⟨e, hb, he⟩)] at h
        split at h <;> cases h
    · rintro ⟨e, hb, rfl, rfl, rfl⟩
      exact (h1 e hb).1
  have hB : ∀ t i x, c.findIndex x = some (t, i) ↔ ∃ e, Border g used e ∧ e.gt = t ∧ e.index = i ∧ e.id = x := by
    intro t i x
    constructor
    · intro h
      by_cases hex : ∃ e, Border g used e ∧ e.id = x
      · obtain ⟨e, hb, rfl⟩ := hex
        have := (h1 e hb).2.1
        rw [h, Option.some.injEq, Prod.mk.injEq] at this
        exact ⟨e, hb, this.1.symm, this.2.symm, rfl⟩
      · rw [h3 x (fun e hb he => hex ⟨e, hb, he⟩)] at h
        cases h
    · rintro ⟨e, hb, rfl, rfl, rfl⟩
      exact (h1 e hb).2.1
  refine ⟨hA, hB, fun t i x => (hA t i x).trans (hB t i x).symm, ?_⟩
  intro t i
  constructor
  · intro h
    by_cases hex : ∃ e ∈ visited g used, (e.gt, e.index) = (t, i)
    · obtain ⟨e, he, hti⟩ := hex
      rw [Prod.mk.injEq] at hti
      obtain ⟨rfl, rfl⟩ := hti
      by_cases hp : e.part = .border
      · exact ⟨e, (border_visited g used e).2 ⟨he, hp⟩, rfl, rfl⟩
      · obtain ⟨k, _, _, _, _, hpp⟩ := (mem_visited g used e).1 he
        rw [h4 e he (hpp.resolve_right hp)] at h
        cases h
    · have := h5 t i (fun e he hti => hex ⟨e, he, hti⟩) h
      simp [Cache.isBorderEntity, Cache.empty] at this
  · rintro ⟨e, hb, rfl, rfl⟩
    exact (h1 e hb).2.2

/-- The border vertex is found in the grid above. -/
example : Border line (fun _ => true) ⟨0, 2, .border, 22⟩ ∧ (Cache.empty.update line fun _ => true).findIndex 22 = some (0, 2) :=
  ⟨⟨1, by decide, by decide, rfl, by decide, rfl⟩, by decide⟩

/-- The grid after a change of its distribution: the second vertex is the border. -/
def EntitySet.line' : Grid :=
  { line with
    entities := fun c =>
      if c = 0 then [⟨1, 0, .interior, 10⟩, ⟨1, 1, .overlap, 11⟩, ⟨1, 2, .overlap, 12⟩]
      else if c = 1 then [⟨0, 3, .overlap, 23⟩, ⟨0, 0, .interior, 20⟩, ⟨0, 1, .border, 21⟩, ⟨0, 2, .overlap, 22⟩]
      else [] }

theorem EntitySet.line'_WF : WF EntitySet.line' where
  offsetZero := rfl
  offsetTop := rfl
  offsetMono := by intro d _; exact Nat.le_succ d
  typesNodup := by decide
  typesRange := by decide
  typesDim := by decide
  entType := by decide
  entBound := by decide
  entOnto := by
    intro c hc t ht i hi
    have h : ∀ c, c ≤ 1 → ∀ t ∈ EntitySet.line'.types c, ∀ i, i < 4 → i < EntitySet.line'.size t →
      ∃ e ∈ EntitySet.line'.entities c, e.gt = t ∧ e.index = i := by decide
    refine h c hc t ht i ?_ hi
    simp only [EntitySet.line', EntitySet.line] at hi
    split at hi <;> omega
  entInj := by decide
  entNodup := by decide

/-- C46, negated: `update` never clears the map from ids to indices, so that former border entities are still found; the maps are not
inverse to each other. -/
theorem C46_findIndex_false :
    ∃ g g' : Grid, WF g ∧ WF g' ∧ UniqueIds g ∧ UniqueIds g' ∧
      let c := (Cache.empty.update g fun _ => true).update g' fun _ => true
      ∃ x t i, c.findIndex x = some (t, i) ∧ c.id t i = none ∧ ∀ k, k ≤ g'.dim → ∀ e ∈ g'.entities k, e.part = .border → e.id ≠ x := by
  refine ⟨line, line', line_WF, line'_WF, by unfold UniqueIds; decide, by unfold UniqueIds; decide, 22, 0, 2, ?_⟩
  decide

/-- C46, negated: the flags of entities that are neither interior nor border any more are kept. -/
theorem C46_isBorder_false :
    ∃ g g' : Grid, WF g ∧ WF g' ∧ UniqueIds g ∧ UniqueIds g' ∧
      let c := (Cache.empty.update g fun _ => true).update g' fun _ => true
      ∃ e ∈ g'.entities 1, e.part = .overlap ∧ c.isBorderEntity e.gt e.index = true := by
  refine ⟨line, line', line_WF, line'_WF, by unfold UniqueIds; decide, by unfold UniqueIds; decide, ⟨0, 2, .overlap, 22⟩, ?_⟩
  decide

end Verif
