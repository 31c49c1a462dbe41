import Verif.Proofs.LeafOrdering
/-! Properties C12, C53, C54: the ordering of a leaf space on a grid view. -/
namespace Verif
open LeafOrdering PSums
open Orderings (partialSums)

/-- One cell with two edges (type 0). The finite element puts two DOFs on edge 0 and one DOF on edge 1. -/
def twoEdges : Grid := ⟨1, fun _ => 2, [[⟨0, 0, 0⟩, ⟨0, 0, 1⟩, ⟨0, 1, 0⟩]]⟩

/-- **C12 is false for the code as it is**: the automatic detection of a fixed size remembers, per cell and
geometry type, only the size of the entity visited last, so with entity-dependent sizes inside one cell
two DOFs can get the same index. -/
theorem C12_entity_ranges_false :
    ¬ ∀ (g : Grid) (l : Leaf), g.Valid → g.update false none = some l →
        ContiguousNumbering g (dofCount g.cells) l.size l.mapIndex := by
  intro h
  have hv : twoEdges.Valid := by
    intro c hc k hk
    simp [twoEdges] at hc
    subst hc
    have : k = ⟨0, 0, 0⟩ ∨ k = ⟨0, 0, 1⟩ ∨ k = ⟨0, 1, 0⟩ := by simpa using hk
    rcases this with rfl | rfl | rfl <;> exact ⟨by decide, by decide⟩
  obtain ⟨base, h1, h2, _⟩ := h twoEdges
    ⟨false, true, [true], [1], [0, 2], [0, 2], [], 2, 2⟩ hv (by decide +kernel)
  have d1 : IsDof twoEdges (dofCount twoEdges.cells) 0 0 1 := ⟨by decide, by decide, by decide +kernel⟩
  have d2 : IsDof twoEdges (dofCount twoEdges.cells) 0 1 0 := ⟨by decide, by decide, by decide +kernel⟩
  have e1 := (h1 0 0 1 d1).1
  have e2 := (h1 0 1 0 d2).1
  simp [Leaf.mapIndex] at e1 e2
  have := h2 0 0 1 0 1 0 d1 d2 (by omega)
  simp at this

/-- **C12 (partial)**: an unblocked leaf ordering gives every entity a contiguous range of as many indices as
it has DOFs; the ranges are disjoint and cover `0..size()-1`
* if the finite element map has a fixed number of DOFs per geometry type,
* if sizes are entity-dependent and the ordering keeps per-entity offsets,
* and also if a fixed size is detected automatically, provided that within each cell all sub-entities of a
  type have the same number of DOFs.
Missing: detected fixed sizes without the last condition, where the claim is false (see above). -/
theorem C12_entity_ranges_partial (g : Grid) (hv : g.Valid) :
    (∀ s : Nat → Nat, ∃ l, g.update false (some s) = some l ∧
      ContiguousNumbering g (fun t _ => s t) l.size l.mapIndex) ∧
    (∃ l, g.update false none = some l ∧
      (l.fixed = false → ContiguousNumbering g (dofCount g.cells) l.size l.mapIndex) ∧
      ((∃ subs, Uniform g subs) → ContiguousNumbering g (dofCount g.cells) l.size l.mapIndex)) := by
  refine ⟨?_, ?_⟩
  · intro s
    refine ⟨_, rfl, ?_⟩
    apply mkFixed_map g _ _ _ (by simp)
    intro t e ht he
    simp [List.getD, ht, show 0 < g.count t by omega]
  · obtain ⟨sc, h1, h2⟩ := scan_ok g hv
    have hfull : g.cells.take g.cells.length = g.cells := List.take_length
    have hsz := h2.sizes
    rw [hfull] at hsz
    refine ⟨_, by simp only [Grid.update, h1, Option.map_some]; rfl, ?_, ?_⟩
    · intro hf
      cases hp : sc.possible with
      | true => simp [hp, mkFixed] at hf
      | false =>
        simp only [Bool.false_eq_true, if_false]
        exact mkVar_map g (dofCount g.cells) _ sc.sizes hsz.1 hsz.2 (fun t e h => dofCount_unused h e) rfl rfl rfl rfl rfl
    · rintro ⟨subs, hu⟩
      cases hp : sc.possible with
      | true =>
        simp only [if_true]
        apply mkFixed_map g _ _ _ (by simpa using h2.len)
        intro t e ht he
        rw [getD_map_getD, detected_sizes hu h2 hp t e ht he]; rfl
      | false =>
        simp only [Bool.false_eq_true, if_false]
        exact mkVar_map g (dofCount g.cells) _ sc.sizes hsz.1 hsz.2 (fun t e h => dofCount_unused h e) rfl rfl rfl rfl rfl

/-- Two segments 0-1 and 1-2 (type 1 = segment, type 0 = vertex) with P2 elements. -/
def twoSegments : Grid := ⟨2, fun t => if t = 0 then 3 else 2,
  [[⟨0, 0, 0⟩, ⟨1, 0, 0⟩, ⟨0, 1, 0⟩], [⟨0, 1, 0⟩, ⟨1, 1, 0⟩, ⟨0, 2, 0⟩]]⟩

/-- p-adaptive DG: 2 DOFs on the first segment, 1 on the second. -/
def adaptiveDG : Grid := ⟨2, fun t => if t = 0 then 3 else 2, [[⟨1, 0, 0⟩, ⟨1, 0, 1⟩], [⟨1, 1, 0⟩]]⟩

example : (∃ l, adaptiveDG.update false none = some l ∧ l.fixed = false ∧ l.mapIndex 1 1 0 = some [2]) ∧
    (∃ l, twoSegments.update false none = some l ∧ l.fixed = true ∧ l.size = 5 ∧ l.mapIndex 1 1 0 = some [4]) :=
  ⟨⟨⟨false, false, [false, true], [0, 2], [], [0, 0, 2], [0, 2, 3], 3, 3⟩, by decide +kernel⟩,
   ⟨⟨false, true, [true, true], [1, 1], [0, 3, 5], [0, 3, 5], [], 5, 5⟩, by decide +kernel⟩⟩

example : Uniform twoSegments [[(0, 0), (0, 1), (1, 0)], [(0, 1), (0, 2), (1, 1)]] := by
  refine ⟨rfl, ?_, ?_, ?_, ?_⟩
  · intro i c s hc hs k hk
    have hi : i < 2 := by
      have := (List.getElem?_eq_some_iff.1 hc).1
      simpa [twoSegments] using this
    have : i = 0 ∨ i = 1 := by omega
    rcases this with rfl | rfl
    · simp [twoSegments] at hc hs
      subst hc; subst hs
      simp at hk
      rcases hk with rfl | rfl | rfl <;> decide
    · simp [twoSegments] at hc hs
      subst hc; subst hs
      simp at hk
      rcases hk with rfl | rfl | rfl <;> decide
  · intro t e ht he
    have ht : t < 2 := ht
    have : t = 0 ∨ t = 1 := by omega
    rcases this with rfl | rfl
    · have he : e < 3 := he
      have : e = 0 ∨ e = 1 ∨ e = 2 := by omega
      rcases this with rfl | rfl | rfl <;> decide
    · have he : e < 2 := he
      have : e = 0 ∨ e = 1 := by omega
      rcases this with rfl | rfl <;> decide
  · intro i c s hc hs t e hm
    have hi : i < 2 := by
      have := (List.getElem?_eq_some_iff.1 hc).1
      simpa [twoSegments] using this
    have : i = 0 ∨ i = 1 := by omega
    rcases this with rfl | rfl
    · simp [twoSegments] at hc hs
      subst hc; subst hs
      simp at hm
      rcases hm with ⟨rfl, rfl⟩ | ⟨rfl, rfl⟩ | ⟨rfl, rfl⟩ <;> decide
    · simp [twoSegments] at hc hs
      subst hc; subst hs
      simp at hm
      rcases hm with ⟨rfl, rfl⟩ | ⟨rfl, rfl⟩ | ⟨rfl, rfl⟩ <;> decide
  · intro s hs t e e' h1 h2
    simp at hs
    rcases hs with rfl | rfl <;> simp at h1 h2 <;>
      rcases h1 with ⟨rfl, rfl⟩ | ⟨rfl, rfl⟩ | ⟨rfl, rfl⟩ <;> rcases h2 with ⟨h, rfl⟩ | ⟨h, rfl⟩ | ⟨h, rfl⟩ <;>
      first | (exact absurd h (by decide)) | decide

/-! ### C53 container-blocked leaf spaces -/

/-- Three edges of which only edge 2 carries a DOF. -/
def oneOfThree : Grid := ⟨1, fun _ => 3, [[], [⟨0, 2, 0⟩]]⟩

/-- **C53 is false for the code as it is**: a container-blocked leaf ordering with entity-dependent sizes reports the number
of DOFs as the number of blocks, so block numbers can lie beyond `blockCount()`. -/
theorem C53_block_numbers_below_count_false :
    ¬ ∀ (g : Grid) (l : Leaf) (t e i b : Nat) (r : List Nat), g.Valid → g.update true none = some l →
        IsDof g (dofCount g.cells) t e i → l.mapIndex t e i = some (b :: r) → b < l.blockCount := by
  intro h
  have hv : oneOfThree.Valid := by
    intro c hc k hk
    simp [oneOfThree] at hc
    rcases hc with rfl | rfl
    · simp at hk
    · simp at hk; subst hk; exact ⟨by decide, by decide⟩
  have := h oneOfThree ⟨true, false, [true], [0], [], [0, 3], [0, 0, 0, 1], 1, 1⟩ 0 2 0 2 [0] hv (by decide +kernel)
    ⟨by decide, by decide, by decide +kernel⟩ (by decide +kernel)
  simp at this

/-- **C53 (partial)**: for a container-blocked leaf space whose finite element map has a fixed number of DOFs per
geometry type, entity `e` of type `t` forms the block with `s t` entries numbered `base t e`, different
entities have different blocks, and the blocks are exactly `0..blockCount()-1`. For entity-dependent sizes
different entities still have different blocks. Missing: block count in the latter case (false). -/
theorem C53_block_numbers_partial (g : Grid) (hv : g.Valid) :
    (∀ s : Nat → Nat, ∃ l, g.update true (some s) = some l ∧ ∃ base : Nat → Nat → Nat,
      (∀ t e i, IsDof g (fun t _ => s t) t e i →
        l.mapIndex t e i = some [base t e, i] ∧ base t e < l.blockCount) ∧
      (∀ t e t' e', IsDof g (fun t _ => s t) t e 0 → IsDof g (fun t _ => s t) t' e' 0 →
        base t e = base t' e' → t = t' ∧ e = e') ∧
      (∀ b, b < l.blockCount → ∃ t e, IsDof g (fun t _ => s t) t e 0 ∧ base t e = b)) ∧
    (∃ l, g.update true none = some l ∧ (l.fixed = false → ∃ base : Nat → Nat → Nat,
      (∀ t e i, IsDof g (dofCount g.cells) t e i → l.mapIndex t e i = some [base t e, i]) ∧
      (∀ t e t' e', IsDof g (dofCount g.cells) t e 0 → IsDof g (dofCount g.cells) t' e' 0 →
        base t e = base t' e' → t = t' ∧ e = e'))) := by
  refine ⟨?_, ?_⟩
  · intro s
    refine ⟨_, rfl, ?_⟩
    let sizes := (List.range g.types).map fun t => if 0 < g.count t then s t else 0
    let f : Nat → Nat := fun t => (if 0 < sizes.getD t 0 then 1 else 0) * g.count t
    have hsz : ∀ t, t < g.types → 0 < g.count t → sizes.getD t 0 = s t := by
      intro t ht hc; simp [sizes, List.getD, ht, hc]
    have hf : ∀ t e i, IsDof g (fun t _ => s t) t e i → e < f t := by
      rintro t e i ⟨ht, he, hi⟩
      simp only [f]
      have hi : i < s t := hi
      rw [hsz t ht (by omega), if_pos (by omega)]; omega
    refine ⟨fun t e => psum f t + e, ?_, ?_, ?_⟩
    · intro t e i hd
      constructor
      · have h1 : (partialSums 0 ((List.range g.types).map f))[t]? = some (psum f t) :=
          ps_get f g.types t (by have := hd.1; omega)
        have : (mkFixed g true (sizes.map fun x => decide (0 < x)) sizes []).mapIndex t e i = some [psum f t + e, i] := by
          simp only [Leaf.mapIndex, mkFixed, if_true]
          change ((partialSums 0 ((List.range g.types).map f))[t]?).bind _ = _
          rw [h1]; rfl
        exact this
      · have : (mkFixed g true (sizes.map fun x => decide (0 < x)) sizes []).blockCount = psum f g.types := by
          change (partialSums 0 ((List.range g.types).map f)).getLast?.getD 0 = _
          rw [Orderings.partialSums_last, Nat.zero_add]; rfl
        have h2 := psum_add_lt f hd.1 (hf t e i hd)
        rw [← this] at h2
        exact h2
    · intro t e t' e' h1 h2 h3
      exact psum_inj f (hf _ _ _ h1) (hf _ _ _ h2) h3
    · intro b hb
      have hb : b < psum f g.types := by
        have : (mkFixed g true (sizes.map fun x => decide (0 < x)) sizes []).blockCount = psum f g.types := by
          change (partialSums 0 ((List.range g.types).map f)).getLast?.getD 0 = _
          rw [Orderings.partialSums_last, Nat.zero_add]; rfl
        rw [← this]; exact hb
      obtain ⟨t, e, ht, he, rfl⟩ := psum_exists f _ b hb
      refine ⟨t, e, ?_, rfl⟩
      simp only [f] at he
      split at he
      · rename_i hp
        have hc : 0 < g.count t := by omega
        rw [hsz t ht hc] at hp
        exact ⟨ht, by omega, hp⟩
      · omega
  · obtain ⟨sc, h1, h2⟩ := scan_ok g hv
    refine ⟨_, by simp only [Grid.update, h1, Option.map_some]; rfl, ?_⟩
    intro hf
    cases hp : sc.possible with
    | true => simp [hp, mkFixed] at hf
    | false =>
      have hdof : ∀ t e i, IsDof g (dofCount g.cells) t e i → e < cnt g t := by
        rintro t e i ⟨ht, he, hi⟩
        unfold cnt
        cases hu : g.gtUsed t with
        | true => simpa using he
        | false => rw [dofCount_unused hu e] at hi; omega
      refine ⟨fun t e => psum (cnt g) t + e, ?_, ?_⟩
      · intro t e i hd
        simp [Leaf.mapIndex, offsets_get g t (by have := hd.1; omega)]
      · intro t e t' e' d1 d2 h3
        exact psum_inj (cnt g) (hdof _ _ _ d1) (hdof _ _ _ d2) h3

example : (twoSegments.update true (some fun _ => 2)).bind (fun l => l.mapIndex 1 1 1) = some [4, 1] ∧
    (adaptiveDG.update true none).map (fun l => l.fixed) = some false := by decide +kernel

/-! ### C54 -/

/-- **C54**: `extract_entity_indices` of an entity lists exactly the container indices that `mapIndex` gives to the
entity's DOFs `0, ..., size(gt,entity)-1`, in this order; for every grid, blocked or not, fixed or
entity-dependent sizes. -/
theorem C54_entity_indices_agree_with_mapIndex (g : Grid) (hv : g.Valid) (blocked : Bool)
    (femSize : Option (Nat → Nat)) (t e : Nat) (ht : t < g.types) (he : e < g.count t) :
    ∃ l n is, g.update blocked femSize = some l ∧ l.entitySize t e = some n ∧
      l.extractEntityIndices t e = some is ∧ is.length = n ∧
      ∀ i, i < n → l.mapIndex t e i = is[i]? := by
  have hfixed : ∀ (used : List Bool) (sizes eo : List Nat), used.length = g.types → sizes.length = g.types →
      (used[t]? = some false → sizes.getD t 0 = 0) →
      ∃ n is, (mkFixed g blocked used sizes eo).entitySize t e = some n ∧
        (mkFixed g blocked used sizes eo).extractEntityIndices t e = some is ∧ is.length = n ∧
        ∀ i, i < n → (mkFixed g blocked used sizes eo).mapIndex t e i = is[i]? := by
    intro used sizes eo hul hsl h0
    let f : Nat → Nat := fun t => (if blocked then (if 0 < sizes.getD t 0 then 1 else 0) else sizes.getD t 0) * g.count t
    have h1 : (partialSums 0 ((List.range g.types).map f))[t]? = some (psum f t) := ps_get f g.types t (by omega)
    have hs : sizes[t]? = some (sizes.getD t 0) := by
      simp [List.getD, List.getElem?_eq_getElem (show t < sizes.length by omega)]
    have hes : (mkFixed g blocked used sizes eo).entitySize t e = some (sizes.getD t 0) := by
      simp only [Leaf.entitySize, mkFixed, if_true]; exact hs
    have hgo : (mkFixed g blocked used sizes eo).gtDofOffsets[t]? = some (psum f t) := h1
    have hgs : (mkFixed g blocked used sizes eo).gtDofSizes[t]? = some (sizes.getD t 0) := hs
    have hbl : (mkFixed g blocked used sizes eo).blocked = blocked := rfl
    have hfx : (mkFixed g blocked used sizes eo).fixed = true := rfl
    have hus : (mkFixed g blocked used sizes eo).gtUsed = used := rfl
    have hmap : ∀ i, (mkFixed g blocked used sizes eo).mapIndex t e i =
        some (if blocked then [psum f t + e, i] else [i + (psum f t + e * sizes.getD t 0)]) := by
      intro i
      rw [Leaf.mapIndex, if_pos hfx, hgo, Option.bind_some, hbl, hgs]
      cases blocked <;> rfl
    have hut : ∃ u, used[t]? = some u := ⟨_, List.getElem?_eq_getElem (by omega)⟩
    obtain ⟨u, hu⟩ := hut
    cases u with
    | false =>
      refine ⟨_, [], hes, by rw [Leaf.extractEntityIndices, hus, hu]; rfl, by rw [h0 hu]; rfl, ?_⟩
      intro i hi; rw [h0 hu] at hi; omega
    | true =>
      refine ⟨_, (List.range (sizes.getD t 0)).map fun i =>
          (if blocked then [psum f t + e, i] else [i + (psum f t + e * sizes.getD t 0)]), hes, ?_, by simp, ?_⟩
      · rw [Leaf.extractEntityIndices, hus, hu, Option.bind_some, if_pos rfl, if_pos hfx, hgs, Option.bind_some, hgo,
          Option.map_some, hbl]
        cases blocked <;> rfl
      · intro i hi
        rw [hmap, List.getElem?_map, List.getElem?_range hi]; rfl
  cases femSize with
  | some s =>
    obtain ⟨n, is, h⟩ := hfixed (((List.range g.types).map fun t => if 0 < g.count t then s t else 0).map fun x => decide (0 < x))
      ((List.range g.types).map fun t => if 0 < g.count t then s t else 0) [] (by simp) (by simp)
      (by simp [List.getD, ht])
    exact ⟨_, n, is, rfl, h⟩
  | none =>
    obtain ⟨sc, h1, h2⟩ := scan_ok g hv
    have hup : g.update blocked none = g.update blocked none := rfl
    conv at hup => rhs; simp only [Grid.update, h1, Option.map_some]
    cases hp : sc.possible with
    | true =>
      rw [hp] at hup; simp only [if_true] at hup
      obtain ⟨n, is, h⟩ := hfixed ((List.range g.types).map g.gtUsed) (sc.gtSizes.map fun o => o.getD 0) g.gtEntityOffsets
        (by simp) (by simpa using h2.len) (by
          intro hu
          have hu : g.gtUsed t = false := by simpa [ht] using hu
          rw [getD_map_getD]
          rcases h2.gt hp t ht with ⟨_, h⟩ | ⟨v, hv1, hv2⟩
          · rw [h]; rfl
          · rw [hv1]
            cases hcells : g.cells with
            | nil => 
              simp [hcells, Grid.scan] at h1
              rw [← h1] at hv1
              simp [ht] at hv1
            | cons c cs =>
              have hc : g.cells[0]? = some c := by rw [hcells]; rfl
              rcases hv2 0 c (by rw [hcells]; simp) hc with ⟨rfl, _⟩ | ⟨k, hk, hkt, _⟩
              · rfl
              · have := used_of_key (g := g) (by rw [hcells]; simp) hk
                rw [hkt, hu] at this; simp at this)
      exact ⟨_, n, is, hup, h⟩
    | false =>
      rw [hp] at hup; simp only [Bool.false_eq_true, if_false] at hup
      have hsz := h2.sizes
      rw [List.take_length] at hsz
      cases hu : g.gtUsed t with
      | false =>
        refine ⟨_, dofCount g.cells t e, [], hup, ?_, ?_, by rw [dofCount_unused hu]; rfl, ?_⟩
        · simp [Leaf.entitySize, ht, hu, dofCount_unused hu]
        · simp [Leaf.extractEntityIndices, ht, hu]
        · intro i hi; rw [dofCount_unused hu] at hi; omega
      | true =>
        have hc : e < cnt g t := by simp [cnt, hu, he]
        have hlt : psum (cnt g) t + e < psum (cnt g) g.types := psum_add_lt _ ht hc
        let f : Nat → Nat := fun j => sc.sizes.getD j 0
        have hszl : sc.sizes = (List.range (psum (cnt g) g.types)).map f := by
          rw [← hsz.1]; exact Orderings.sizes_eq _
        have hps : ∀ j, j ≤ psum (cnt g) g.types → (partialSums 0 sc.sizes)[j]? = some (psum f j) := by
          intro j hj
          conv_lhs => rw [hszl]
          exact ps_get f _ _ hj
        have hf : f (psum (cnt g) t + e) = dofCount g.cells t e := by
          simp only [f, List.getD, hsz.2 t e ht hc, Option.getD_some]; rfl
        have hd : psum f (psum (cnt g) t + e + 1) - psum f (psum (cnt g) t + e) = dofCount g.cells t e := by
          rw [psum_succ, hf]; omega
        refine ⟨_, dofCount g.cells t e, (List.range (dofCount g.cells t e)).map fun i =>
          if blocked then [psum (cnt g) t + e, i] else [i + psum f (psum (cnt g) t + e)], hup, ?_, ?_, by simp, ?_⟩
        · simp [Leaf.entitySize, ht, hu, offsets_get g t (by omega), hps _ (show psum (cnt g) t + e ≤ _ by omega),
            hps _ (show psum (cnt g) t + e + 1 ≤ _ by omega), hd]
        · simp only [Leaf.extractEntityIndices, List.getElem?_map, List.getElem?_range ht, Option.map_some, hu,
            Option.bind_some, if_true, Bool.false_eq_true, if_false, offsets_get g t (show t ≤ g.types by omega),
            hps _ (show psum (cnt g) t + e ≤ _ by omega), hps _ (show psum (cnt g) t + e + 1 ≤ _ by omega), hd]
          cases blocked <;> rfl
        · intro i hi
          rw [List.getElem?_map, List.getElem?_range hi, Option.map_some]
          simp only [Leaf.mapIndex, Bool.false_eq_true, if_false, offsets_get g t (show t ≤ g.types by omega),
            Option.bind_some, hps _ (show psum (cnt g) t + e ≤ _ by omega), Option.map_some]
          cases blocked <;> rfl

example : (adaptiveDG.update false none).bind (fun l => l.extractEntityIndices 1 0) = some [[0], [1]] := by decide +kernel

end Verif
