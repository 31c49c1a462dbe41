import Verif.Proofs.DuneFunctionsSpace
/-
C201-C204: grid function spaces made from dune-functions bases.
-/
namespace Verif

open DuneFunctionsSpace

/-! ### C201: indices of DOFs -/

/-- Whatever the basis and the grid, the update makes no invalid access; afterwards the number of DOFs of an entity is the smallest number above all indices
of local keys of the entity, and the container index of a DOF index is the index which the basis gives to it in the element visited last. -/
theorem C201_update (B : Basis) (hB : B.Indexed) : ∃ o, update B = some o ∧ ∀ gt ent,
    (∀ m, o.size gt ent ≤ m ↔ ∀ e ∈ B.elements, ∀ d ∈ e, d.On gt ent → d.k < m) ∧
    ∀ k, o.containerIndex (gt, ent, k) =
      ((B.elements.flatten.filter fun d => d.gt == gt && d.ent == ent && d.k == k).getLast?).map LocalDof.index := by
  obtain ⟨o, h, h1, _⟩ := update_all B hB
  exact ⟨o, h, h1⟩

/-- Two triangles with a common edge (type 1, number 0) with two DOFs, which the second triangle sees in the other direction. -/
def flippedEdge : Basis :=
  ⟨[[2], [1], [0]], fun gt => if gt = 2 then 2 else if gt = 1 then 5 else 4,
    [[⟨0, 0, 0, 0⟩, ⟨1, 0, 0, 4⟩, ⟨1, 0, 1, 5⟩, ⟨2, 0, 0, 6⟩], [⟨0, 0, 0, 0⟩, ⟨1, 0, 0, 5⟩, ⟨1, 0, 1, 4⟩, ⟨2, 1, 0, 7⟩]]⟩

/-- The same with one DOF on the edge. -/
def sharedEdge : Basis :=
  ⟨[[2], [1], [0]], fun gt => if gt = 2 then 2 else if gt = 1 then 5 else 4,
    [[⟨0, 0, 0, 0⟩, ⟨0, 1, 0, 1⟩, ⟨1, 0, 0, 4⟩], [⟨0, 1, 0, 1⟩, ⟨0, 0, 0, 0⟩, ⟨1, 0, 0, 4⟩, ⟨2, 1, 0, 7⟩]]⟩

theorem flippedEdge_indexed : flippedEdge.Indexed := by unfold Basis.Indexed; decide
theorem sharedEdge_indexed : sharedEdge.Indexed := by unfold Basis.Indexed; decide
theorem sharedEdge_consistent : sharedEdge.Consistent := by unfold Basis.Consistent; decide

example : ∃ o, update flippedEdge = some o ∧ o.size 1 0 = 2 ∧ o.size 1 1 = 0 ∧ o.containerIndex (1, 0, 0) = some 5 :=
  ⟨(update flippedEdge).get (by decide +kernel), by simp, by decide +kernel, by decide +kernel, by decide +kernel⟩

/-- If elements that share an entity agree about its local keys, the container index of the DOF index of a local DOF is the container index which the local
function space has for the local DOF. -/
theorem C201_container_index_partial (B : Basis) (hB : B.Indexed) (hC : B.Consistent) (o : LeafOrdering) (ho : update B = some o)
    (e : List LocalDof) (he : e ∈ B.elements) (i : Nat) (hi : i < e.length) :
    ∃ c, lfsContainerIndex e i = some c ∧ (lfsDofIndex e i).bind o.containerIndex = some c := by
  obtain ⟨o', h, h1, _⟩ := update_all B hB
  rw [ho] at h
  obtain rfl := Option.some.inj h
  have hd : e[i]? = some e[i] := List.getElem?_eq_getElem hi
  refine ⟨(e[i]).index, by unfold lfsContainerIndex; rw [hd]; rfl, ?_⟩
  unfold lfsDofIndex
  rw [hd]
  change o.containerIndex (e[i].gt, e[i].ent, e[i].k) = _
  rw [(h1 _ _).2]
  have hmem : e[i] ∈ B.elements.flatten.filter (hasKey e[i].gt e[i].ent e[i].k) :=
    List.mem_filter.mpr ⟨List.mem_flatten.mpr ⟨e, he, List.getElem_mem hi⟩, hasKey_iff.mpr ⟨rfl, rfl, rfl⟩⟩
  rcases Option.eq_none_or_eq_some (B.elements.flatten.filter (hasKey e[i].gt e[i].ent e[i].k)).getLast? with hn | ⟨x, hx⟩
  · rw [List.getLast?_eq_none_iff] at hn
    rw [hn] at hmem
    cases hmem
  · rw [hx]
    have hxm := List.mem_of_getLast? hx
    obtain ⟨hf, hkey⟩ := List.mem_filter.mp hxm
    obtain ⟨e', he', hx'⟩ := List.mem_flatten.mp hf
    obtain ⟨a, b, c⟩ := hasKey_iff.mp hkey
    exact congrArg some (hC e' he' x hx' e he e[i] (List.getElem_mem hi) a b c)

example : sharedEdge.Indexed ∧ sharedEdge.Consistent ∧ (update sharedEdge).isSome = true :=
  ⟨sharedEdge_indexed, sharedEdge_consistent, by decide +kernel⟩

/-- Without this agreement the two container indices differ: in the first triangle the first DOF of the edge has the index 4, the ordering says 5. -/
theorem C201_container_index_false : ∃ (B : Basis) (o : LeafOrdering) (e : List LocalDof) (i : Nat), B.Indexed ∧ update B = some o ∧
    e ∈ B.elements ∧ i < e.length ∧ (lfsDofIndex e i).bind o.containerIndex ≠ lfsContainerIndex e i :=
  ⟨flippedEdge, (update flippedEdge).get (by decide +kernel),
    [⟨0, 0, 0, 0⟩, ⟨1, 0, 0, 4⟩, ⟨1, 0, 1, 5⟩, ⟨2, 0, 0, 6⟩], 1, flippedEdge_indexed, by simp, by decide, by decide, by decide +kernel⟩

/-- The indices which the ordering gives for an entity are those of the basis functions of the entity, each once, even if the elements number them differently:
if all elements with DOFs on the entity have the same set of indices `S` there. -/
theorem C201_entity_indices (B : Basis) (hB : B.Indexed) (o : LeafOrdering) (ho : update B = some o) (gt ent n : Nat) (S : List Nat)
    (hn : ∀ e ∈ B.elements, Complete e gt ent n)
    (hS : ∀ e ∈ B.elements, dofsOn e gt ent ≠ [] → ((dofsOn e gt ent).map LocalDof.index).Perm S)
    (hex : ∃ e ∈ B.elements, dofsOn e gt ent ≠ []) :
    (o.extract gt ent).Perm (S.map some) ∧ o.size gt ent = n := by
  obtain ⟨o', h, h1, _⟩ := update_all B hB
  rw [ho] at h
  obtain rfl := Option.some.inj h
  obtain ⟨p, e, s, hps, hne, hlast⟩ := exists_last (fun e => dofsOn e gt ent ≠ []) B.elements hex
  have he : e ∈ B.elements := by rw [hps]; simp
  have hperm : ((dofsOn e gt ent).map LocalDof.k).Perm (List.range n) := (hn e he).resolve_left hne
  have hnodup : ((dofsOn e gt ent).map LocalDof.k).Nodup := hperm.nodup_iff.mpr List.nodup_range
  have hsize : o.size gt ent = n := by
    apply Nat.le_antisymm
    · refine ((h1 gt ent).1 n).mpr fun e' he' d hd hon => ?_
      have hd' : d ∈ dofsOn e' gt ent := mem_dofsOn.mpr ⟨hd, hon.1, hon.2⟩
      rcases hn e' he' with h0 | hp
      · rw [h0] at hd'; cases hd'
      · exact List.mem_range.mp (hp.mem_iff.mp (List.mem_map.mpr ⟨d, hd', rfl⟩))
    · apply Nat.le_of_not_lt
      intro hlt
      have hm : o.size gt ent ∈ (dofsOn e gt ent).map LocalDof.k := hperm.mem_iff.mpr (List.mem_range.mpr hlt)
      obtain ⟨d, hd, hdk⟩ := List.mem_map.mp hm
      obtain ⟨a, b⟩ := mem_dofsOn.mp hd
      have := ((h1 gt ent).1 (o.size gt ent)).mp (Nat.le_refl _) e he d a b
      omega
  refine ⟨?_, hsize⟩
  rw [extract_eq, hsize]
  refine (hperm.symm.map _).trans ?_
  refine List.Perm.trans ?_ ((hS e he hne).map some)
  rw [List.map_map, List.map_map]
  refine List.Perm.of_eq (List.map_congr_left fun d hd => ?_)
  change o.containerIndex (gt, ent, d.k) = some d.index
  rw [(h1 gt ent).2]
  have hs : s.flatten.filter (hasKey gt ent d.k) = [] := by
    rw [List.filter_eq_nil_iff]
    intro x hx hk
    obtain ⟨e', he', hx'⟩ := List.mem_flatten.mp hx
    obtain ⟨a, b, _⟩ := hasKey_iff.mp hk
    have h0 : dofsOn e' gt ent = [] := Classical.not_not.mp (hlast e' he')
    have : x ∈ dofsOn e' gt ent := mem_dofsOn.mpr ⟨hx', a, b⟩
    rw [h0] at this
    cases this
  have hmem : d ∈ e.filter (hasKey gt ent d.k) := by
    obtain ⟨a, b, c⟩ := mem_dofsOn.mp hd
    exact List.mem_filter.mpr ⟨a, hasKey_iff.mpr ⟨b, c, rfl⟩⟩
  rw [hps, List.flatten_append, List.flatten_cons, List.filter_append, List.filter_append, hs, List.append_nil, List.getLast?_append]
  rcases Option.eq_none_or_eq_some (e.filter (hasKey gt ent d.k)).getLast? with hn0 | ⟨x, hx⟩
  · rw [List.getLast?_eq_none_iff] at hn0
    rw [hn0] at hmem
    cases hmem
  · rw [hx]
    obtain ⟨hxe, hk⟩ := List.mem_filter.mp (List.mem_of_getLast? hx)
    obtain ⟨a, b, c⟩ := hasKey_iff.mp hk
    have : x = d := unique_of_nodup hnodup (mem_dofsOn.mpr ⟨hxe, a, b⟩) hd c
    rw [this]
    rfl

example : (∀ e ∈ flippedEdge.elements, Complete e 1 0 2) ∧
    (∀ e ∈ flippedEdge.elements, dofsOn e 1 0 ≠ [] → ((dofsOn e 1 0).map LocalDof.index).Perm [4, 5]) ∧
    ∃ e ∈ flippedEdge.elements, dofsOn e 1 0 ≠ [] := by
  unfold Complete; decide

/-! ### C202: `contains` and `fixedSize` -/

/-- `contains(codim)` tells whether an entity of the codimension has DOFs. -/
theorem C202_contains (B : Basis) (hB : B.Indexed) (o : LeafOrdering) (ho : update B = some o) (codim : Nat) (ts : List Nat)
    (hts : B.types[codim]? = some ts) :
    ∃ c : Bool, o.contains codim = some c ∧ (c = true ↔ ∃ gt ∈ ts, ∃ ent, ent < B.count gt ∧ 0 < o.size gt ent) := by
  obtain ⟨o', h, _, h1⟩ := update_all B hB
  rw [ho] at h
  obtain rfl := Option.some.inj h
  obtain ⟨c, f, a, _, b, _⟩ := h1 codim ts hts
  exact ⟨c, a, b⟩

/-- `fixedSize(codim)` tells whether all entities of each geometry type of the codimension have the same number of DOFs. This is the documented meaning if the
codimension has one geometry type. Missing: several types in one codimension, see `C202_fixedSize_false`. -/
theorem C202_fixedSize_partial (B : Basis) (hB : B.Indexed) (o : LeafOrdering) (ho : update B = some o) (codim : Nat) (ts : List Nat)
    (hts : B.types[codim]? = some ts) :
    ∃ f : Bool, o.fixedSize codim = some f ∧
      (f = true ↔ ∀ gt ∈ ts, ∀ i j, i < B.count gt → j < B.count gt → o.size gt i = o.size gt j) := by
  obtain ⟨o', h, _, h1⟩ := update_all B hB
  rw [ho] at h
  obtain rfl := Option.some.inj h
  obtain ⟨c, f, _, a, _, b⟩ := h1 codim ts hts
  exact ⟨f, a, b⟩

example : flippedEdge.Indexed ∧ flippedEdge.types[1]? = some [1] ∧
    (update flippedEdge).map (fun o => (o.contains 1, o.fixedSize 1, o.fixedSize 0)) = some (some true, some false, some true) :=
  ⟨flippedEdge_indexed, by decide, by decide +kernel⟩

/-- A triangle (type 2) with one DOF and a quadrilateral (type 3) with two. -/
def mixedMesh : Basis :=
  ⟨[[2, 3]], fun gt => if gt = 2 ∨ gt = 3 then 1 else 0, [[⟨2, 0, 0, 0⟩], [⟨3, 0, 0, 1⟩, ⟨3, 0, 1, 2⟩]]⟩

/-- On a mesh with two geometry types `fixedSize` says that all entities have the same number of DOFs although they have not. -/
theorem C202_fixedSize_false : ∃ (B : Basis) (o : LeafOrdering), B.Indexed ∧ update B = some o ∧ o.fixedSize 0 = some true ∧
    ∃ ts, B.types[0]? = some ts ∧ ∃ gt ∈ ts, ∃ gt' ∈ ts, 0 < B.count gt ∧ 0 < B.count gt' ∧ o.size gt 0 ≠ o.size gt' 0 :=
  ⟨mixedMesh, (update mixedMesh).get (by decide +kernel), by unfold Basis.Indexed; decide, by simp, by decide +kernel,
    [2, 3], by decide, 2, by decide, 3, by decide, by decide, by decide, by decide +kernel⟩

/-! ### C203: the finite element map -/

theorem femRun_expected {FE : Type} (evs : List (FemEvent FE)) : ∀ (fe : Element → FE) (m : List (Nat × FE)), AllByType fe evs →
    (∀ e : Element, ∀ f, lookup e.type m = some f → f = fe e) → femRun (fe, m) evs = expectedAnswers fe evs := by
  induction evs with
  | nil => intro fe m _ _; rfl
  | cons ev evs ih =>
    intro fe m h hm
    have ht : ∀ fe' : Element → FE, FemEvent.update fe' ∈ evs → ByType fe' := fun fe' h' => h.2 fe' (List.mem_cons_of_mem _ h')
    cases ev with
    | find e =>
      rcases Option.eq_none_or_eq_some (lookup e.type m) with hn | ⟨f, hf⟩
      · have : femStep (fe, m) (.find e) = ((fe, (e.type, fe e) :: m), some (fe e)) := by simp [femStep, hn]
        unfold femRun
        rw [this]
        simp only [expectedAnswers]
        rw [ih fe _ ⟨h.1, ht⟩]
        intro e' f hf
        unfold lookup at hf
        split at hf
        · next he => rw [← Option.some.inj hf]; exact h.1 e e' he
        · exact hm e' f hf
      · have : femStep (fe, m) (.find e) = ((fe, m), some f) := by simp [femStep, hf]
        unfold femRun
        rw [this]
        simp only [expectedAnswers]
        rw [ih fe m ⟨h.1, ht⟩ hm, hm e f hf]
    | update fe' =>
      change femRun (fe', []) evs = expectedAnswers fe' evs
      exact ih fe' [] ⟨h.2 fe' (List.mem_cons_self ..), ht⟩ (fun e f hf => by cases hf)

/-- Bases whose finite elements depend on the geometry type only: in any history of calls and updates, the finite element map answers with the finite element
of the basis of that time. -/
theorem C203_find_partial {FE : Type} (fe : Element → FE) (evs : List (FemEvent FE)) (h : AllByType fe evs) :
    femRun (fe, []) evs = expectedAnswers fe evs :=
  femRun_expected evs fe [] h fun e f hf => by cases hf

example : AllByType (fun e : Element => e.type + 1) [.find ⟨0, 0⟩, .find ⟨1, 1⟩, .update (fun e => 2 * e.type), .find ⟨1, 0⟩] := by
  refine ⟨fun e e' h => by simp [h], fun fe' h => ?_⟩
  simp at h
  subst h
  intro e e' h
  simp [h]

/-- Other bases, for example with a polynomial degree for each element: the answer for the second triangle is the finite element of the first. -/
theorem C203_find_false : ∃ (fe : Element → Nat) (evs : List (FemEvent Nat)), femRun (fe, []) evs ≠ expectedAnswers fe evs :=
  ⟨fun e => e.no + 1, [.find ⟨0, 0⟩, .find ⟨0, 1⟩], by decide⟩

/-! ### C204: constraints -/

/-- An element without constrained DOFs: the index cache says so. Missing: elements with constrained DOFs, see `C204_constrained_false`. -/
theorem C204_constrained_partial (maxSize : Nat) (constraints : List Nat) (e : List LocalDof) (hsize : e.length ≤ maxSize)
    (h : ∀ d ∈ e, d.index ∉ constraints) (i : Nat) (hi : i < e.length) :
    ∃ b : Bool, ((Cache.create maxSize).update constraints e).isConstrained i = some b ∧ (b = true ↔ e[i].index ∈ constraints) := by
  refine ⟨false, ?_, ?_⟩
  · change (List.replicate maxSize 0)[i]?.map _ = _
    rw [List.getElem?_replicate, if_pos (by omega)]
    rfl
  · simp [h _ (List.getElem_mem hi)]

example : ∀ d ∈ [(⟨0, 0, 0, 0⟩ : LocalDof), ⟨0, 1, 0, 1⟩], d.index ∉ [2, 3] := by decide

/-- A constrained DOF is never reported: whatever the constraints, the cache answers that the DOF is not constrained. -/
theorem C204_constrained_false : ∃ (maxSize : Nat) (constraints : List Nat) (e : List LocalDof) (i : Nat) (hi : i < e.length),
    e.length ≤ maxSize ∧ e[i].index ∈ constraints ∧ ((Cache.create maxSize).update constraints e).isConstrained i = some false :=
  ⟨2, [1], [⟨0, 0, 0, 0⟩, ⟨0, 1, 0, 1⟩], 1, by decide, by decide, by decide, by decide⟩

end Verif
