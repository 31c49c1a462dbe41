import Verif.Proofs.FiniteElementMapsFind
/-
Properties of the finite element maps.
-/
namespace Verif
open FEM FEM.Spec

/-! ## C128: shape functions of neighbouring simplices fit -/

/-- `PkLocalFiniteElementMap::find` in 2d and 3d returns the variant of the element whose vertex map sorts the vertices like their
indices in the grid. For other geometry types it throws. -/
theorem C128_vertex_order (gt : GeometryType) (n : Nat → Nat) :
    (gt.isSimplex = true → (∀ i < 3, ∀ j < 3, n i = n j → i = j) → ∃ p, pk2Find gt n = some p ∧ SortsLike 3 p n) ∧
    (gt.isSimplex = true → (∀ i < 4, ∀ j < 4, n i = n j → i = j) → ∃ p, pk3Find gt n = some p ∧ SortsLike 4 p n) ∧
    (gt.isSimplex = false → pk2Find gt n = none ∧ pk3Find gt n = none) := by
  refine ⟨fun hg hinj => ?_, fun hg hinj => pk3Find_sorts gt hg n hinj, fun hg => ⟨by simp [pk2Find, hg], by simp [pk3Find, hg]⟩⟩
  exact pk2Find_sorts gt hg n (fun h => by have := hinj 0 (by omega) 1 (by omega) h; omega)
    (fun h => by have := hinj 0 (by omega) 2 (by omega) h; omega) (fun h => by have := hinj 1 (by omega) 2 (by omega) h; omega)

/-- Two tetrahedra order the vertices they have in common alike; the same for triangles. -/
theorem C128_neighbours (gt : GeometryType) (n n' : Nat → Nat) :
    (∀ p p', pk3Find gt n = some p → pk3Find gt n' = some p' →
      (∀ i < 4, ∀ j < 4, n i = n j → i = j) → (∀ i < 4, ∀ j < 4, n' i = n' j → i = j) →
      ∀ i < 4, ∀ j < 4, ∀ i' < 4, ∀ j' < 4, n i = n' i' → n j = n' j' →
        (p.getD i 0 < p.getD j 0 ↔ p'.getD i' 0 < p'.getD j' 0)) ∧
    (∀ p p', pk2Find gt n = some p → pk2Find gt n' = some p' →
      (∀ i < 3, ∀ j < 3, n i = n j → i = j) → (∀ i < 3, ∀ j < 3, n' i = n' j → i = j) →
      ∀ i < 3, ∀ j < 3, ∀ i' < 3, ∀ j' < 3, n i = n' i' → n j = n' j' →
        (p.getD i 0 < p.getD j 0 ↔ p'.getD i' 0 < p'.getD j' 0)) := by
  constructor
  · intro p p' h1 h2 hi hi' i h3 j h4 i' h5 j' h6 h7 h8
    cases hg : gt.isSimplex with
    | false => rw [((C128_vertex_order gt n).2.2 hg).2] at h1; cases h1
    | true =>
      obtain ⟨q, hq, hs⟩ := (C128_vertex_order gt n).2.1 hg hi
      obtain ⟨q', hq', hs'⟩ := (C128_vertex_order gt n').2.1 hg hi'
      rw [h1] at hq
      rw [h2] at hq'
      cases hq
      cases hq'
      rw [hs.2.2 i h3 j h4, hs'.2.2 i' h5 j' h6, h7, h8]
  · intro p p' h1 h2 hi hi' i h3 j h4 i' h5 j' h6 h7 h8
    cases hg : gt.isSimplex with
    | false => rw [((C128_vertex_order gt n).2.2 hg).1] at h1; cases h1
    | true =>
      obtain ⟨q, hq, hs⟩ := (C128_vertex_order gt n).1 hg hi
      obtain ⟨q', hq', hs'⟩ := (C128_vertex_order gt n').1 hg hi'
      rw [h1] at hq
      rw [h2] at hq'
      cases hq
      cases hq'
      rw [hs.2.2 i h3 j h4, hs'.2.2 i' h5 j' h6, h7, h8]

example : pk3Find (gtSimplex 3) (fun i => [17, 4, 23, 0].getD i 0) = some [2, 1, 3, 0] ∧
    pk2Find (gtSimplex 2) (fun i => [17, 4, 23].getD i 0) = some [1, 0, 2] ∧ pk2Find (gtCube 2) (fun i => i) = none := by decide +kernel

/-! ## C129: normal components of neighbouring cells have the same orientation -/

/-- The Raviart-Thomas and Brezzi-Douglas-Marini maps: the variant that `find` returns for a cell inverts exactly the faces behind which
there is a cell with a larger index. There is such a variant. -/
theorem C129_variants (m : Nat) (hm : m ≤ 8) (cells : List Cell) (hnd : (cells.map (·.index)).Nodup)
    (hf : ∀ c ∈ cells, ∀ is ∈ c.intersections, is.face < m) (c : Cell) (hc : c ∈ cells) :
    ∃ o, faceFind (2 ^ m) cells c.index = some o ∧
      ∀ f, o.testBit f = true ↔ ∃ is ∈ c.intersections, is.face = f ∧ ∃ k, is.outside = some k ∧ c.index < k := by
  have hb := faceOrient_bits cells hnd (fun c hc is his => by have := hf c hc is his; omega) c hc
  refine ⟨faceOrient cells c.index, ?_, hb⟩
  have hlt : faceOrient cells c.index < 2 ^ m := by
    apply lt_two_pow_of_bits
    intro f hmf
    rw [Bool.eq_false_iff]
    intro h
    obtain ⟨is, h1, h2, _⟩ := (hb f).1 h
    have := hf c hc is h1
    omega
  rw [faceFind]
  simp [hlt]

/-- If two cells share a face and have no other neighbours behind that face, exactly one of them has the inverted shape function: both
mean the same orientation. -/
theorem C129_orientation_partial (m : Nat) (hm : m ≤ 8) (cells : List Cell) (hnd : (cells.map (·.index)).Nodup)
    (hf : ∀ c ∈ cells, ∀ is ∈ c.intersections, is.face < m) (a b : Cell) (ha : a ∈ cells) (hb : b ∈ cells) (hab : a.index ≠ b.index)
    (fa fb : Nat) (hfa : ∃ is ∈ a.intersections, is.face = fa) (hfb : ∃ is ∈ b.intersections, is.face = fb)
    (h1 : ∀ is ∈ a.intersections, is.face = fa → is.outside = some b.index)
    (h2 : ∀ is ∈ b.intersections, is.face = fb → is.outside = some a.index) :
    ∃ oa ob, faceFind (2 ^ m) cells a.index = some oa ∧ faceFind (2 ^ m) cells b.index = some ob ∧
      oa.testBit fa = !ob.testBit fb := by
  obtain ⟨oa, e1, e2⟩ := C129_variants m hm cells hnd hf a ha
  obtain ⟨ob, e3, e4⟩ := C129_variants m hm cells hnd hf b hb
  refine ⟨oa, ob, e1, e3, ?_⟩
  have k1 : oa.testBit fa = true ↔ a.index < b.index := by
    rw [e2]
    constructor
    · rintro ⟨is, h3, h4, k, h5, h6⟩
      rw [h1 is h3 h4] at h5
      cases h5
      exact h6
    · intro h
      obtain ⟨is, h3, h4⟩ := hfa
      exact ⟨is, h3, h4, _, h1 is h3 h4, h⟩
  have k2 : ob.testBit fb = true ↔ b.index < a.index := by
    rw [e4]
    constructor
    · rintro ⟨is, h3, h4, k, h5, h6⟩
      rw [h2 is h3 h4] at h5
      cases h5
      exact h6
    · intro h
      obtain ⟨is, h3, h4⟩ := hfb
      exact ⟨is, h3, h4, _, h2 is h3 h4, h⟩
  cases ho : ob.testBit fb <;> cases ho' : oa.testBit fa <;> simp_all <;> omega

-- Two quadrilaterals side by side.
example : ∃ oa ob, faceFind (2 ^ 4) [⟨0, [⟨1, some 1⟩, ⟨0, none⟩]⟩, ⟨1, [⟨0, some 0⟩, ⟨3, none⟩]⟩] 0 = some oa ∧
    faceFind (2 ^ 4) [⟨0, [⟨1, some 1⟩, ⟨0, none⟩]⟩, ⟨1, [⟨0, some 0⟩, ⟨3, none⟩]⟩] 1 = some ob ∧
    oa.testBit 1 = !ob.testBit 0 :=
  C129_orientation_partial 4 (by omega) [⟨0, [⟨1, some 1⟩, ⟨0, none⟩]⟩, ⟨1, [⟨0, some 0⟩, ⟨3, none⟩]⟩] (by decide)
    (by simp) ⟨0, [⟨1, some 1⟩, ⟨0, none⟩]⟩ ⟨1, [⟨0, some 0⟩, ⟨3, none⟩]⟩ (by simp) (by simp) (by simp) 1 0 (by simp) (by simp)
    (by simp) (by simp)

/-- On a nonconforming grid the orientation of a coarse face is not that of all its parts: cell 1 has the cells 0 and 2 behind its
face 1. -/
theorem C129_nonconforming_false : ¬ ∀ (cells : List Cell), (cells.map (·.index)).Nodup →
    (∀ c ∈ cells, ∀ is ∈ c.intersections, is.face < 4) →
    ∀ a ∈ cells, ∀ b ∈ cells, ∀ ia ∈ a.intersections, ∀ ib ∈ b.intersections, ia.outside = some b.index → ib.outside = some a.index →
    ∃ oa ob, faceFind (2 ^ 4) cells a.index = some oa ∧ faceFind (2 ^ 4) cells b.index = some ob ∧
      oa.testBit ia.face = !ob.testBit ib.face := by
  intro h
  obtain ⟨oa, ob, h1, h2, h3⟩ := h [⟨0, [⟨0, some 1⟩]⟩, ⟨1, [⟨1, some 0⟩, ⟨1, some 2⟩]⟩, ⟨2, [⟨0, some 1⟩]⟩] (by decide) (by simp)
    ⟨0, [⟨0, some 1⟩]⟩ (by simp) ⟨1, [⟨1, some 0⟩, ⟨1, some 2⟩]⟩ (by simp) ⟨0, some 1⟩ (by simp) ⟨1, some 0⟩ (by simp) rfl rfl
  have e1 : faceFind (2 ^ 4) [⟨0, [⟨0, some 1⟩]⟩, ⟨1, [⟨1, some 0⟩, ⟨1, some 2⟩]⟩, ⟨2, [⟨0, some 1⟩]⟩] 0 = some 1 := by decide
  have e2 : faceFind (2 ^ 4) [⟨0, [⟨0, some 1⟩]⟩, ⟨1, [⟨1, some 0⟩, ⟨1, some 2⟩]⟩, ⟨2, [⟨0, some 1⟩]⟩] 1 = some 2 := by decide
  rw [e1] at h1
  rw [e2] at h2
  cases h1
  cases h2
  revert h3
  decide

/-- In a parallel run the processes number their cells independently: the same face of the same cell (`name`) may be inverted on one
process and not on another one. -/
theorem C129_processes_false : ¬ ∀ (name₁ name₂ : Nat → String) (grid₁ grid₂ : List Cell),
    (grid₁.map (·.index)).Nodup → (grid₂.map (·.index)).Nodup →
    (∀ c ∈ grid₁, ∃ c' ∈ grid₂, name₁ c.index = name₂ c'.index ∧
      c.intersections.map (fun is => (is.face, is.outside.map name₁)) = c'.intersections.map fun is => (is.face, is.outside.map name₂)) →
    ∀ c ∈ grid₁, ∀ c' ∈ grid₂, name₁ c.index = name₂ c'.index → faceFind (2 ^ 4) grid₁ c.index = faceFind (2 ^ 4) grid₂ c'.index := by
  intro h
  have := h (fun i => if i = 0 then "left" else "right") (fun i => if i = 0 then "right" else "left")
    [⟨0, [⟨1, some 1⟩]⟩, ⟨1, [⟨0, some 0⟩]⟩] [⟨0, [⟨0, some 1⟩]⟩, ⟨1, [⟨1, some 0⟩]⟩] (by decide) (by decide) (by decide)
    ⟨0, [⟨1, some 1⟩]⟩ (by simp) ⟨1, [⟨1, some 0⟩]⟩ (by simp) (by decide)
  revert this
  decide

/-! ## C130: tangential components -/

/-- `EdgeS0LocalFiniteElementMap::find` for reference elements with at most 8 edges: the shape function of each edge points from the
vertex with the smaller to the one with the larger global id. -/
theorem C130_edges_partial (edges : List (Nat × Nat)) (he : edges.length ≤ 8) (cells : List VertexCell)
    (hnd : (cells.map (·.index)).Nodup) (c : VertexCell) (hc : c ∈ cells)
    (hd : ∀ e ∈ edges, e.1 ≠ e.2 ∧ c.vid e.1 ≠ c.vid e.2) :
    ∃ o, edgeFind edges cells c.index = some o ∧ ∀ (f : Nat) (hf : f < edges.length),
      let lower := min edges[f].1 edges[f].2
      let higher := max edges[f].1 edges[f].2
      if o.testBit f then c.vid higher < c.vid lower else c.vid lower < c.vid higher := by
  have hb := edgeOrient_bits edges he cells hnd c hc
  refine ⟨edgeOrient edges cells c.index, ?_, ?_⟩
  · have hlt : edgeOrient edges cells c.index < 2 ^ edges.length := by
      apply lt_two_pow_of_bits
      intro f hf
      rw [Bool.eq_false_iff]
      intro h
      have := ((hb f).1 h).1
      omega
    rw [edgeFind]
    simp [hlt]
  · intro f hf
    have hbf := hb f
    rw [List.getD_eq_getElem _ _ hf] at hbf
    obtain ⟨h1, h2⟩ := hd edges[f] (List.getElem_mem hf)
    dsimp only
    rcases Nat.lt_or_gt_of_ne h1 with h | h
    · rw [min_eq_left h.le, max_eq_right h.le]
      by_cases hv : c.vid edges[f].1 < c.vid edges[f].2
      · rw [if_neg]
        · exact hv
        · intro ht
          have := (hbf.1 ht).2
          simp [Nat.not_lt_of_gt h, Nat.not_lt_of_gt hv] at this
      · rw [if_pos]
        · omega
        · rw [hbf]
          refine ⟨hf, ?_⟩
          simp [Nat.not_lt_of_gt h]
          omega
    · rw [min_eq_right h.le, max_eq_left h.le]
      by_cases hv : c.vid edges[f].1 < c.vid edges[f].2
      · rw [if_pos]
        · exact hv
        · rw [hbf]
          refine ⟨hf, ?_⟩
          simp [h]
          omega
      · rw [if_neg]
        · omega
        · intro ht
          have := (hbf.1 ht).2
          simp [h] at this
          omega

-- The edges of the reference tetrahedron.
example : edgeFind [(0, 1), (0, 2), (1, 2), (0, 3), (1, 3), (2, 3)] [⟨0, fun i => [40, 12, 33, 7].getD i 0⟩] 0 = some 59 := by decide

/-- False for hexahedra: the orientations of the edges 8 to 11 do not fit into the byte where they are stored. -/
theorem C130_hexahedra_false : ¬ ∀ (edges : List (Nat × Nat)) (cells : List VertexCell), (cells.map (·.index)).Nodup →
    ∀ c ∈ cells, (∀ e ∈ edges, e.1 ≠ e.2 ∧ c.vid e.1 ≠ c.vid e.2) →
    ∃ o, edgeFind edges cells c.index = some o ∧ ∀ (f : Nat) (hf : f < edges.length),
      let lower := min edges[f].1 edges[f].2
      let higher := max edges[f].1 edges[f].2
      if o.testBit f then c.vid higher < c.vid lower else c.vid lower < c.vid higher := by
  intro h
  obtain ⟨o, h1, h2⟩ := h [(0, 4), (1, 5), (2, 6), (3, 7), (0, 2), (1, 3), (0, 1), (2, 3), (4, 6), (5, 7), (4, 5), (6, 7)]
    [⟨0, fun i => 100 - i⟩] (by decide) ⟨0, fun i => 100 - i⟩ (by simp) (by decide)
  have e : edgeFind [(0, 4), (1, 5), (2, 6), (3, 7), (0, 2), (1, 3), (0, 1), (2, 3), (4, 6), (5, 7), (4, 5), (6, 7)]
    [⟨0, fun i => 100 - i⟩] 0 = some 255 := by decide
  rw [e] at h1
  cases h1
  have := h2 8 (by decide)
  revert this
  decide

/-! ## C131: numbers of degrees of freedom -/

/-- Lagrange elements on simplices: P_k in dimension 1, 2, 3. -/
theorem C131_simplices (k : Nat) :
    Consistent 1 (simplexSub 1) ((k + 1).choose 1) (pk1 k) ∧ Consistent 1 (simplexSub 1) ((k + 1).choose 1) (pk1dRuntime k) ∧
    Consistent 2 (simplexSub 2) ((k + 2).choose 2) (pk2 k) ∧ Consistent 3 (simplexSub 3) ((k + 3).choose 3) (pk3 k) :=
  ⟨pk1_consistent k, pk1d_consistent k, pk2_consistent k, pk3_consistent k⟩

/-- Lagrange elements on cubes: Q_1 and Q_2 in any dimension. -/
theorem C131_cubes (d : Nat) : Consistent d (cubeSub d) (2 ^ d) (qk 1 d) ∧ Consistent d (cubeSub d) (3 ^ d) (qk 2 d) :=
  ⟨qk1_consistent d, qk2_consistent d⟩

/-- Discontinuous elements: constants, monomials, the orthonormal basis and the bases of Q_k on cubes. -/
theorem C131_discontinuous (d k n : Nat) (hn : 0 < n) :
    Consistent d (cubeSub d) 1 (p0 (gtCube d)) ∧ Consistent d (simplexSub d) 1 (p0 (gtSimplex d)) ∧
    Consistent d (cubeSub d) n (monom (gtCube d) n) ∧ Consistent d (simplexSub d) n (monom (gtSimplex d) n) ∧
    Consistent d (cubeSub d) ((k + d).choose d) (opb .cube .Pk k d) ∧
    Consistent d (simplexSub d) ((k + d).choose d) (opb .simplex .Pk k d) ∧
    Consistent d (cubeSub d) ((k + 1) ^ d) (opb .cube .Qk k d) ∧
    Consistent d (cubeSub d) ((k + 1) ^ d) (qkdg k d) := by
  obtain ⟨g, hg, rfl⟩ := geometryType_cube d
  have hs := geometryType_simplex d
  have hp : 0 < (k + d).choose d := Nat.choose_pos (by omega)
  have hp2 : 0 < (k + 1) ^ d := by positivity
  have hq : FE.qkSize k d = (k + 1) ^ d := FE.qkSize_eq k d
  refine ⟨cell_consistent_cube d _ _ (fun _ => rfl) (fun a _ => ?_) rfl one_pos rfl,
    cell_consistent_simplex d _ _ (fun _ => rfl) (fun a _ => ?_) rfl one_pos rfl,
    cell_consistent_cube d _ _ (fun _ => rfl) (fun a _ => ?_) rfl hn rfl,
    cell_consistent_simplex d _ _ (fun _ => rfl) (fun a _ => ?_) rfl hn rfl,
    cell_consistent_cube d _ _ (fun _ => rfl) (fun a _ => ?_) (OPB.pkSize_eq d k) hp rfl,
    cell_consistent_simplex d _ _ (fun _ => rfl) (fun a _ => ?_) (OPB.pkSize_eq d k) hp rfl,
    cell_consistent_cube d _ _ (fun _ => rfl) (fun a _ => ?_) (OPB.qkSize_eq d k) hp2 rfl,
    cell_consistent_cube d _ _ (fun _ => rfl) (fun a _ => ?_) hq hp2 rfl⟩
  · simp [p0, gt_eq_cube]
  · simp [p0, gt_eq_simplex]
  · simp [monom, gt_eq_cube]
  · simp [monom, gt_eq_simplex]
  · simp [opb, hg, gt_eq_cube, OPB.basisSize, OPB.pkSize_eq]
  · simp [opb, hs, gt_eq_simplex, OPB.basisSize, OPB.pkSize_eq]
  · simp [opb, hg, gt_eq_cube, OPB.basisSize, OPB.qkSize_eq]
  · simp [qkdg, gt_eq_cube, hq]

/-- Raviart-Thomas and Brezzi-Douglas-Marini elements, with the dimensions of these spaces; edge elements of lowest order on simplices. -/
theorem C131_flux :
    Consistent 2 (simplexSub 2) 3 rt0Simplex2 ∧ Consistent 2 (simplexSub 2) 8 rt1Simplex2 ∧
    Consistent 2 (cubeSub 2) 4 rt0Cube2 ∧ Consistent 2 (cubeSub 2) 12 rt1Cube2 ∧ Consistent 2 (cubeSub 2) 24 rt2Cube2 ∧
    Consistent 3 (simplexSub 3) 4 rt0Simplex3 ∧ Consistent 3 (cubeSub 3) 6 rt0Cube3 ∧ Consistent 3 (cubeSub 3) 36 rt1Cube3 ∧
    Consistent 2 (simplexSub 2) 6 bdm1Simplex2 ∧ Consistent 2 (cubeSub 2) 8 bdm1Cube2 ∧
    Consistent 2 (simplexSub 2) 3 (edgeS05 2) ∧ Consistent 3 (simplexSub 3) 6 (edgeS05 3) := by
  refine ⟨⟨?_, ?_, ?_, rfl⟩, ⟨?_, ?_, ?_, rfl⟩, ⟨?_, ?_, ?_, rfl⟩, ⟨?_, ?_, ?_, rfl⟩, ⟨?_, ?_, ?_, rfl⟩, ⟨?_, ?_, ?_, rfl⟩, ⟨?_, ?_, ?_, rfl⟩, ⟨?_, ?_, ?_, rfl⟩, ⟨?_, ?_, ?_, rfl⟩,
    ⟨?_, ?_, ?_, rfl⟩, ⟨?_, ?_, ?_, rfl⟩, ⟨?_, ?_, ?_, rfl⟩⟩ <;>
  first
  | decide +kernel
  | exact cube_codims _ _ (by decide +kernel)
  | exact simplex_codims _ _ (by decide +kernel)

/-- Powers of maps. -/
theorem C131_power (r d n : Nat) (sub : List (Nat × GeometryType)) (m : Sizes) (hr : 0 < r) (h : Consistent d sub n m) :
    Consistent d sub (r * n) (power r m) := power_consistent r d n sub m hr h

/-- The Rannacher-Turek element is right in 2d. -/
theorem C131_rannacher_turek_partial : Consistent 2 (cubeSub 2) 4 rannacherTurek :=
  ⟨by decide +kernel, cube_codims _ _ (by decide +kernel), by decide, rfl⟩

/-- In 3d, where it has one degree of freedom for each of the 6 faces, the map puts them on the 12 edges, and the bound is too small. -/
theorem C131_rannacher_turek_false : ¬ Consistent 3 (cubeSub 3) 6 rannacherTurek := by
  intro h
  have := h.bound
  revert this
  decide

/-- `PkQkLocalFiniteElementMap::maxLocalSize()` bounds the sizes of P_k and Q_k for order 0 and 1 only. -/
theorem C131_pkqk_bound_partial (d order : Nat) (h : order ≤ 1) :
    (order + 1) ^ d ≤ pkqkMaxLocalSize d ∧ (order + d).choose d ≤ pkqkMaxLocalSize d := by
  have h1 : d + 1 ≤ 2 ^ d := Nat.lt_two_pow_self
  rw [pkqkMaxLocalSize]
  interval_cases order
  · simp
    exact Nat.one_le_two_pow
  · refine ⟨le_rfl, ?_⟩
    rw [Nat.add_comm 1 d, Nat.choose_succ_self_right]
    exact h1

theorem C131_pkqk_bound_false : ¬ ∀ d order : Nat, (order + 1) ^ d ≤ pkqkMaxLocalSize d := by
  intro h
  have := h 2 2
  revert this
  decide

/-- `PkQkLocalFiniteElementMap::hasDOFs`: the codimensions with degrees of freedom of Q_k; the elements P_k have no others. -/
theorem C131_pkqk_codims (d order codim : Nat) (hd : 0 < d) (h : codim ≤ d) :
    (pkqkHasDOFs d order codim = true ↔ if order = 0 then codim = 0 else 0 < (order - 1) ^ (d - codim)) ∧
    (pkqkHasDOFs d order codim = false → if order = 0 then codim ≠ 0 else (order - 1).choose (d - codim) = 0) := by
  rw [pkqkHasDOFs]
  by_cases h0 : order = 0
  · subst h0
    by_cases hc : codim = 0
    · simp [hc]
    · simp [hc]
  · by_cases h1 : order = 1
    · subst h1
      by_cases hc : codim = 0
      · subst hc
        have : d ≠ 0 := by omega
        simp [this]
        exact Nat.choose_eq_zero_of_lt (by omega)
      · by_cases hcd : codim = d
        · simp [hcd]
          omega
        · have : d - codim ≠ 0 := by omega
          simp [hc, hcd, this]
          exact Nat.choose_eq_zero_of_lt (by omega)
    · have hp : 0 < (order - 1) ^ (d - codim) := Nat.pow_pos (by omega)
      have h2 : order > 1 := by omega
      have h3 : order > 0 := by omega
      simp [h0, h2, h3, hp]

/-- The order given to the constructor of `PkQkLocalFiniteElementMap` is that of the elements; orders above `maxP` throw. `getFEM` gives
the element for the geometry type. -/
theorem C131_pkqk_elements (maxP order : Nat) :
    (order ≤ maxP → pkqkInit order (maxP + 1) = some order) ∧ (maxP < order → pkqkInit order (maxP + 1) = none) ∧
    ∀ d, pkqkGet (gtCube d) = some true ∧ (1 < d → pkqkGet (gtSimplex d) = some false) ∧
      pkqkGet { id := 3, dim := 3 } = none ∧ pkqkGet { id := 5, dim := 3 } = none := by
  have key : ∀ n, pkqkInit order n = if order < n then some order else none := by
    intro n
    induction n with
    | zero => rfl
    | succ n ih =>
      rw [pkqkInit, ih]
      by_cases h : order = n
      · simp [h]
      · by_cases h' : order < n
        · simp [h, h', Nat.lt_succ_of_lt h']
        · rw [if_neg h, if_neg h', if_neg (by omega)]
  refine ⟨fun h => by rw [key, if_pos (by omega)], fun h => by rw [key, if_neg (by omega)], fun d => ⟨?_, fun hd => ?_, ?_, ?_⟩⟩
  · have : (gtCube d).isCube = true := by
      simp only [GeometryType.isCube, gtCube, Bool.not_false, Bool.true_and, beq_iff_eq]
      split
      · simp
      · interval_cases d <;> decide
    simp [pkqkGet, this]
  · have h1 : (gtSimplex d).isCube = false := by
      simp only [GeometryType.isCube, gtSimplex, Bool.not_false, Bool.true_and, Nat.zero_xor]
      have := Nat.pow_le_pow_right (n := 2) (by omega) (show 2 ≤ d by omega)
      simp
      omega
    have h2 : (gtSimplex d).isSimplex = true := by simp [GeometryType.isSimplex, gtSimplex]
    simp [pkqkGet, h1, h2]
  · decide
  · decide

-- Eight degrees of freedom for the trilinear vector-valued element with 3 components: 24; cubic elements on triangles: 10.
example : Consistent 3 (cubeSub 3) (3 * 2 ^ 3) (power 3 (qk 1 3)) := C131_power 3 3 _ _ _ (by omega) (C131_cubes 3).1
example : ((simplexSub 2).map fun s => (pk2 3).size s.2) = [1, 2, 2, 2, 1, 1, 1] := by decide +kernel

/-! ## C132: block sizes -/

/-- `finiteElementMapBlockSize` is s > 0 exactly if s is the only positive number of degrees of freedom that the map has for a geometry
type, among all types with topology ids below 2^dim; otherwise it is 0. -/
theorem C132_block_size (dim : Nat) (size : GeometryType → Nat) (s : Nat) (hs : 0 < s) :
    blockSize dim size = s ↔
      (∃ g : GeometryType, (g.dim ≤ dim ∧ (if g.none then g.id = 0 else g.id < 2 ^ dim)) ∧ size g = s) ∧
      ∀ g : GeometryType, (g.dim ≤ dim ∧ (if g.none then g.id = 0 else g.id < 2 ^ dim)) → size g = 0 ∨ size g = s := by
  rw [blockSize_spec dim size s hs]
  have hmem : ∀ g : GeometryType, g ∈ triedTypes dim ↔ (g.dim ≤ dim ∧ (if g.none then g.id = 0 else g.id < 2 ^ dim)) := by
    rintro ⟨id, d, nn⟩
    simp only [triedTypes, List.mem_flatMap, List.mem_range, List.mem_cons, List.mem_map, GeometryType.mk.injEq]
    constructor
    · rintro ⟨d', hd', h | ⟨i, hi, h⟩⟩
      · obtain ⟨rfl, rfl, rfl⟩ := h
        simp; omega
      · obtain ⟨rfl, rfl, rfl⟩ := h
        simp [hi]; omega
    · rintro ⟨h1, h2⟩
      refine ⟨d, by omega, ?_⟩
      cases nn
      · exact Or.inr ⟨id, by simpa using h2, rfl, rfl, rfl⟩
      · exact Or.inl ⟨by simpa using h2, rfl, rfl⟩
  simp only [hmem]

-- Q_2 has one degree of freedom everywhere; P_3 has one or two.
example : blockSize 2 (qk 2 2).size = 1 ∧ blockSize 2 (pk2 3).size = 0 ∧ blockSize 2 (qkdg 2 2).size = 9 ∧
    blockSize 2 (bdm1Cube2).size = 2 := by decide +kernel

/-! ## C133: elements of variable order -/

/-- `VariableOPB-`, `VariableQkDG-` and `VariableMonomLocalFiniteElementMap`: after any calls of `setOrder`, `getOrder` and `find` of a
cell give the order that was set last for the cell, or the default order. -/
theorem C133_variable_order (maxP cells defaultP : Nat) (h256 : maxP < 256) (hd : defaultP ≤ maxP) (history : List (Nat × Nat))
    (hh : ∀ q ∈ history, q.1 < cells ∧ q.2 ≤ maxP) :
    ∃ v, history.foldlM (fun v q => v.setOrder q.1 q.2) (Variable.init maxP cells defaultP) = some v ∧
      ∀ e < cells, v.getOrder e = some (lastOrder defaultP e history) ∧ v.find e = some (lastOrder defaultP e history) := by
  obtain ⟨v, h1, h2, h3, h4⟩ := variable_history maxP cells defaultP h256 hd history hh
  refine ⟨v, h1, fun e he => ?_⟩
  have hle := lastOrder_le maxP defaultP e hd history fun q hq => (hh q hq).2
  have : v.getOrder e = some (lastOrder defaultP e history) := by
    rw [Variable.getOrder, h4 e he, h2]
    simp [hle]
  exact ⟨this, this⟩

/-- Orders above `maxP` are rejected. -/
theorem C133_rejected (v : Variable) (e p : Nat) (h : v.maxP < p) : v.setOrder e p = none := by
  rw [Variable.setOrder, if_neg (by omega)]

/-- `maxLocalSize()` of the maps with orthonormal and Lagrange bases, the size of the element of order `maxP`, bounds the sizes of all
elements of the map. -/
theorem C133_bound (d p maxP : Nat) (h : p ≤ maxP) :
    OPB.basisSize .Pk d p ≤ OPB.basisSize .Pk d maxP ∧ FE.qkSize p d ≤ FE.qkSize maxP d := by
  refine ⟨OPB.pkSize_mono d h, ?_⟩
  rw [FE.qkSize_eq, FE.qkSize_eq]
  exact Nat.pow_le_pow_left (by omega) d

example : ((([(2, 3), (0, 1), (2, 0), (0, 4)] : List (Nat × Nat)).foldlM (fun (v : Variable) q => v.setOrder q.1 q.2) (Variable.init 6 3 2)).map
    fun v => v.polOrder) = some [4, 2, 0] := by decide

/-! ## C134: mimetic elements -/

/-- `MimeticLocalFiniteElementMap::find` returns the variant for the number of intersections of the cell, whatever was asked before. -/
theorem C134_variant_partial (history : List Nat) (n : Nat) :
    let m := history.foldl (fun m k => (m.find k).1) Mimetic.init
    (m.find n).1.read (m.find n).2 = some n := by
  have : ∀ (l : List Nat) (m : Mimetic), m.variant = List.range m.variant.length →
      (l.foldl (fun m k => (m.find k).1) m).variant = List.range (l.foldl (fun m k => (m.find k).1) m).variant.length := by
    intro l
    induction l with
    | nil => intro m h; exact h
    | cons a l ih => intro m h; exact ih _ (mimetic_find m h a).1
  exact (mimetic_find _ (this history Mimetic.init rfl) n).2.1

/-- A reference that `find` returned stays valid while no cell with more intersections is asked for than the map has variants. -/
theorem C134_reference_partial (m : Mimetic) (r : Nat × Nat) (n : Nat) (h : n < m.variant.length) :
    (m.find n).1.read r = m.read r := by
  rw [Mimetic.find, if_pos h]

/-- Otherwise it dangles: the element of one cell is gone when that of its neighbour has been asked for. -/
theorem C134_reference_false : ¬ ∀ (history : List Nat) (n n' : Nat),
    let m := history.foldl (fun m k => (m.find k).1) Mimetic.init
    ((m.find n).1.find n').1.read (m.find n).2 = some n := by
  intro h
  have := h [] 4 20
  revert this
  decide

example : ((Mimetic.init.find 23).1.read (Mimetic.init.find 23).2) = some 23 := C134_variant_partial [] 23

/-! ## C135: geometry types from basic types -/

/-- `geometryTypeFromBasicType` gives a type of the right dimension and kind, or throws, for simplices and cubes of any dimension and for
pyramids and prisms of dimension at least 2. -/
theorem C135_geometry_type_partial (d : Nat) :
    (∃ g, geometryTypeFromBasicType .simplex d = some g ∧ g.dim = d ∧ g.isSimplex = true) ∧
    (∃ g, geometryTypeFromBasicType .cube d = some g ∧ g.dim = d ∧ g.isCube = true) ∧
    (1 < d → match geometryTypeFromBasicType .pyramid d with
      | some g => d = 3 ∧ g.dim = 3 ∧ g.isPyramid = true
      | none => d ≠ 3) ∧
    (1 < d → match geometryTypeFromBasicType .prism d with
      | some g => d = 3 ∧ g.dim = 3 ∧ g.isPrism = true
      | none => d ≠ 3) := by
  refine ⟨⟨_, geometryType_simplex d, rfl, by simp [GeometryType.isSimplex, gtSimplex]⟩, ?_, fun h => ?_, fun h => ?_⟩
  · obtain ⟨g, hg, rfl⟩ := geometryType_cube d
    refine ⟨_, hg, rfl, ?_⟩
    simp only [GeometryType.isCube, gtCube, Bool.not_false, Bool.true_and, beq_iff_eq]
    split
    · simp
    · interval_cases d <;> decide
  · by_cases h3 : d = 3
    · subst h3; exact ⟨rfl, rfl, rfl⟩
    · simp [geometryTypeFromBasicType, h, h3]
  · by_cases h3 : d = 3
    · subst h3; exact ⟨rfl, rfl, rfl⟩
    · simp [geometryTypeFromBasicType, h, h3]

/-- Every geometry type of dimension 3 with a topology is exactly one of simplex, pyramid, prism and cube. -/
theorem C135_kinds (g : GeometryType) (h : g.none = false) (hd : g.dim = 3) (hid : g.id < 8) :
    (g.isSimplex = true ↔ g.id = 0 ∨ g.id = 1) ∧ (g.isPyramid = true ↔ g.id = 2 ∨ g.id = 3) ∧ (g.isPrism = true ↔ g.id = 4 ∨ g.id = 5) ∧
    (g.isCube = true ↔ g.id = 6 ∨ g.id = 7) := by
  obtain ⟨id, dim, none⟩ := g
  dsimp only at h hd hid
  subst h hd
  interval_cases id <;> decide

example : (geometryTypeFromBasicType .prism 3).map (fun g => (g.isSimplex, g.isPyramid, g.isPrism, g.isCube)) = some (false, false, true, false) := by
  decide

/-- False for `none`: the result is a simplex. False for pyramids of dimension 1: the result is a line. -/
theorem C135_geometry_type_false :
    (∃ g, geometryTypeFromBasicType .none 2 = some g ∧ g.isSimplex = true) ∧
    (∃ g, geometryTypeFromBasicType .pyramid 1 = some g ∧ g.isPyramid = false) :=
  ⟨⟨_, rfl, rfl⟩, ⟨_, rfl, rfl⟩⟩

/-- `BasicTypeFromDimensionAndTopologyId` finds simplices and cubes, and the basic type it finds leads back to the geometry type. -/
theorem C135_basic_type (dim id : Nat) :
    (basicTypeFromTopology dim id = .simplex ↔ ({ id, dim } : GeometryType).isSimplex = true) ∧
    (basicTypeFromTopology dim id = .cube ↔
      ({ id, dim } : GeometryType).isCube = true ∧ ({ id, dim } : GeometryType).isSimplex = false) ∧
    (basicTypeFromTopology dim id ≠ .none →
      ∃ g, geometryTypeFromBasicType (basicTypeFromTopology dim id) dim = some g ∧ g.eq { id, dim } = true) := by
  have hor : (id ||| 1) / 2 = id / 2 := by rw [Nat.or_div_two]; simp
  by_cases h1 : (id ||| 1) = 1
  · have hid : id / 2 = 0 := by rw [← hor, h1]
    have hb : basicTypeFromTopology dim id = .simplex := by simp [basicTypeFromTopology, h1]
    refine ⟨by simp [hb, GeometryType.isSimplex, h1], by simp [hb, GeometryType.isSimplex, h1], fun _ => ?_⟩
    rw [hb]
    refine ⟨_, geometryType_simplex dim, ?_⟩
    simp [GeometryType.eq, gtSimplex]
    omega
  · by_cases h2 : (id ^^^ (2 ^ dim - 1)) / 2 = 0
    · have hb : basicTypeFromTopology dim id = .cube := by
        rw [basicTypeFromTopology, if_neg (by simpa using h1), if_pos (by simpa using h2)]
      refine ⟨by simp [hb, GeometryType.isSimplex, h1], ?_, fun _ => ?_⟩
      · have h3 : ({ id, dim } : GeometryType).isCube = true := by
          simp only [GeometryType.isCube, h2]; rfl
        have h4 : ({ id, dim } : GeometryType).isSimplex = false := by
          simpa [GeometryType.isSimplex] using h1
        simp [hb, h3, h4]
      · rw [hb]
        obtain ⟨g, hg, rfl⟩ := geometryType_cube dim
        refine ⟨_, hg, ?_⟩
        rw [Nat.xor_div_two] at h2
        replace h2 : id / 2 = (2 ^ dim - 1) / 2 := by
          have h3 := congrArg (· ^^^ ((2 ^ dim - 1) / 2)) h2
          simpa [Nat.xor_assoc] using h3
        rw [GeometryType.eq, gtCube_id]
        have h3 : (2 ^ dim - 1) / 2 = 2 ^ (dim - 1) - 1 := by
          rcases Nat.eq_zero_or_pos dim with h0 | h0
          · subst h0; rfl
          · obtain ⟨e, rfl⟩ : ∃ e, dim = e + 1 := ⟨dim - 1, by omega⟩
            rw [pow_succ, Nat.add_sub_cancel]
            have := Nat.one_le_two_pow (n := e)
            omega
        rw [h3] at h2
        simp [gtCube, h2]
    · have hb : basicTypeFromTopology dim id = .none := by
        rw [basicTypeFromTopology, if_neg (by simpa using h1), if_neg (by simpa using h2)]
      refine ⟨by simp [hb, GeometryType.isSimplex, h1], ?_, fun h => absurd hb h⟩
      have h3 : ({ id, dim } : GeometryType).isCube = false := by
        simp only [GeometryType.isCube, Bool.not_false, Bool.true_and, beq_eq_false_iff_ne]
        exact h2
      simp [hb, h3]

example : basicTypeFromTopology 3 7 = .cube ∧ basicTypeFromTopology 3 1 = .simplex ∧ basicTypeFromTopology 3 5 = .none := by decide

end Verif
