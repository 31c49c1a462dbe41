import Verif.Proofs.GridAssembler
/-
C20, C21, C62, C63: grid traversal of the assembler.
-/
namespace Verif
open GridAssembler

section
variable (E : Engine) (all : Bool) (grid : List Cell)

/-- **C20 (cells).** For cells with unique indices, the volume methods are called exactly once for every cell that is not
skipped (and never for skipped ones); the post-skeleton methods likewise if the engine requires them. -/
theorem C20_volume_once_per_cell (hn : (grid.map Cell.id).Nodup) (c : Nat) (hc : c ∈ grid.map Cell.id) :
    cellCalls .assembleVVolume c (assemble E all grid) = (if E.skipEntity c then 0 else 1) ∧
    cellCalls .assembleUVVolume c (assemble E all grid) = (if E.skipEntity c then 0 else 1) ∧
    cellCalls .assembleVVolumePostSkeleton c (assemble E all grid)
      = (if !E.skipEntity c && (E.uvPost || E.vPost) then 1 else 0) ∧
    cellCalls .assembleUVVolumePostSkeleton c (assemble E all grid) = (if !E.skipEntity c && E.uvPost then 1 else 0) := by
  refine ⟨?_, ?_, ?_, ?_⟩
  · rw [cellCalls_assemble E all grid hn _ (Or.inl rfl)]
    cases h : E.skipEntity c <;> simp [hc, volumeRequired]
  · rw [cellCalls_assemble E all grid hn _ (Or.inr (Or.inl rfl))]
    cases h : E.skipEntity c <;> simp [hc, volumeRequired]
  · rw [cellCalls_assemble E all grid hn _ (Or.inr (Or.inr (Or.inl rfl)))]
    cases h : E.skipEntity c <;> simp [hc, volumeRequired]
  · rw [cellCalls_assemble E all grid hn _ (Or.inr (Or.inr (Or.inr rfl)))]
    cases h : E.skipEntity c <;> simp [hc, volumeRequired]

/-- **C20 (interior faces).** A face between two different cells of the process that are not skipped is visited exactly once
in one-sided mode and exactly twice in two-sided mode, by both skeleton methods. -/
theorem C20_interior_faces (f : Nat) (c₁ c₂ : Cell) (hf : InteriorFace all grid f c₁ c₂)
    (hskip : ∀ c, c = c₁ ∨ c = c₂ → E.skipEntity c.id = false ∧ ∀ idx, E.skipIntersection c.id f idx = false) :
    ((E.uvSkeleton = true ∨ E.vSkeleton = true) →
      calls .assembleVSkeleton f (assemble E all grid) = if E.twoSided then 2 else 1) ∧
    (E.uvSkeleton = true → calls .assembleUVSkeleton f (assemble E all grid) = if E.twoSided then 2 else 1) := by
  obtain ⟨i₁, i₂, hs, h1, h2, hne, hi1, hi2, ho1, ho2⟩ := hf
  have hface : ∀ s ∈ sides grid f, s.2.face = f := fun s h => mem_sides grid f s h
  have hint : ∀ s ∈ sides grid f, Interior all s.2 := by
    intro s h; rw [hs] at h; simp at h; rcases h with rfl | rfl <;> assumption
  have hsk : ∀ idx, ∀ s ∈ sides grid f, E.skipEntity s.1.id = false ∧ E.skipIntersection s.1.id f idx = false := by
    intro idx s h
    rw [hs] at h; simp at h
    rcases h with rfl | rfl
    · exact ⟨(hskip c₁ (Or.inl rfl)).1, (hskip c₁ (Or.inl rfl)).2 idx⟩
    · exact ⟨(hskip c₂ (Or.inr rfl)).1, (hskip c₂ (Or.inr rfl)).2 idx⟩
  have hcount : (sides grid f).countP (fun s => visitFace E s.1.id s.2) = if E.twoSided then 2 else 1 := by
    rw [hs]
    have v1 : visitFace E c₁.id i₁ = (decide (c₁.id > c₂.id) || E.twoSided) := by
      unfold visitFace; rw [h1, ho1]; simp
    have v2 : visitFace E c₂.id i₂ = (decide (c₂.id > c₁.id) || E.twoSided) := by
      unfold visitFace; rw [h2, ho2]; simp
    simp only [List.countP_cons, List.countP_nil, v1, v2]
    cases E.twoSided
    · rcases Nat.lt_or_gt_of_ne hne with h | h
      · simp [h, Nat.lt_asymm h]
      · simp [h, Nat.lt_asymm h]
    · simp
  constructor
  · intro hr
    have hr' : (E.uvSkeleton || E.vSkeleton) = true := by rcases hr with h | h <;> simp [h]
    rw [calls_assemble E all grid _ (Or.inl rfl) f (fun c i => visitFace E c.id i)
      (by rw [hr']; rfl) (fun idx s h => by
        have := calls_vSkeleton E all s.1.id idx s.2 (hint s h) hr'
        rw [hface s h] at this; exact this) hsk]
    exact hcount
  · intro hr
    rw [calls_assemble E all grid _ (Or.inr (Or.inl rfl)) f (fun c i => visitFace E c.id i)
      (by rw [hr]; rfl) (fun idx s h => by
        have := calls_uvSkeleton E all s.1.id idx s.2 (hint s h) hr
        rw [hface s h] at this; exact this) hsk]
    exact hcount

/-- **C20 (which side).** In one-sided mode skeleton methods are called from the side with the larger index (for the fast DG
assembler: or from the interior side). -/
theorem C20_visited_from_larger_side (h2 : E.twoSided = false) (hd : E.interiorOnly = false) (e : Event)
    (he : e ∈ assemble E all grid) (hk : e.kind = .assembleVSkeleton ∨ e.kind = .assembleUVSkeleton) :
    e.cell > e.outside := by
  have hk' : IsectKind e.kind := by
    unfold IsectKind
    rcases hk with h | h <;> simp [h]
  unfold assemble at he
  simp only [List.mem_append, List.mem_singleton] at he
  rcases he with (rfl | he) | rfl
  · simp at hk
  · obtain ⟨c, _, he⟩ := List.mem_flatMap.mp he
    obtain ⟨i, _, idx, he⟩ := loopIsects_mem E all _ _ _ _ (visitCell_isect E all c e he hk')
    unfold visitIsect at he
    have hv : visitFace E c.id i = decide (c.id > i.outside) := by unfold visitFace; simp [h2, hd]
    rw [hv] at he
    split at he
    · split at he
      · split at he
        · rename_i hgt; simp only [decide_eq_true_eq] at hgt
          split at he <;> simp at he <;> aesop
        · simp at he
      · simp at he
    · split at he
      · split at he
        · rename_i hgt; simp only [decide_eq_true_eq] at hgt
          split at he <;> simp at he <;> aesop
        · simp at he
      · simp at he
    · split at he
      · split at he <;> simp at he <;> aesop
      · simp at he
    · split at he
      · split at he <;> simp at he <;> aesop
      · simp at he
  · simp at hk

/-- **C20 (boundary faces).** The boundary methods are called exactly once for every boundary face of a cell that is not
skipped. -/
theorem C20_boundary_faces (f : Nat) (c : Cell) (hf : BoundaryFace grid f c)
    (hskip : E.skipEntity c.id = false ∧ ∀ idx, E.skipIntersection c.id f idx = false) :
    ((E.uvBoundary = true ∨ E.vBoundary = true) → calls .assembleVBoundary f (assemble E all grid) = 1) ∧
    (E.uvBoundary = true → calls .assembleUVBoundary f (assemble E all grid) = 1) := by
  obtain ⟨i, hs, hb⟩ := hf
  have hsk : ∀ idx, ∀ s ∈ sides grid f, E.skipEntity s.1.id = false ∧ E.skipIntersection s.1.id f idx = false := by
    intro idx s h
    rw [hs] at h; simp at h; subst h
    exact ⟨hskip.1, hskip.2 idx⟩
  have hface : i.face = f := mem_sides grid f (c, i) (by rw [hs]; simp)
  constructor
  · intro hr
    have hr' : (E.uvBoundary || E.vBoundary) = true := by rcases hr with h | h <;> simp [h]
    rw [calls_assemble E all grid _ (Or.inr (Or.inr (Or.inl rfl))) f (fun _ _ => true)
      (by rw [Bool.or_assoc, hr', Bool.or_true]) (fun idx s h => by
        rw [hs] at h; simp at h; subst h
        have := calls_vBoundary E all c.id idx i hb hr'
        rw [hface] at this; simpa using this) hsk, hs]
    rfl
  · intro hr
    rw [calls_assemble E all grid _ (Or.inr (Or.inr (Or.inr rfl))) f (fun _ _ => true)
      (by rw [hr]; simp) (fun idx s h => by
        rw [hs] at h; simp at h; subst h
        have := calls_uvBoundary E all c.id idx i hb hr
        rw [hface] at this; simpa using this) hsk, hs]
    rfl

/-- **C63.** In the fast DG assembler with an engine that traverses only the interior cells, a face to a cell of another
process is visited exactly once (from the interior side), whatever the indices of the two cells. -/
theorem C63_process_faces (hi : E.interiorOnly = true) (f : Nat) (c : Cell) (hf : ProcessFace all grid f c)
    (hskip : E.skipEntity c.id = false ∧ ∀ idx, E.skipIntersection c.id f idx = false) (hr : E.uvSkeleton = true) :
    calls .assembleUVSkeleton f (assemble E all grid) = 1 ∧ calls .assembleVSkeleton f (assemble E all grid) = 1 := by
  obtain ⟨i, hs, hb, ho⟩ := hf
  have hsk : ∀ idx, ∀ s ∈ sides grid f, E.skipEntity s.1.id = false ∧ E.skipIntersection s.1.id f idx = false := by
    intro idx s h
    rw [hs] at h; simp at h; subst h
    exact ⟨hskip.1, hskip.2 idx⟩
  have hface : i.face = f := mem_sides grid f (c, i) (by rw [hs]; simp)
  have hv : visitFace E c.id i = true := by unfold visitFace; simp [hi, ho]
  constructor
  · rw [calls_assemble E all grid _ (Or.inr (Or.inl rfl)) f (fun _ _ => true)
      (by rw [hr]; rfl) (fun idx s h => by
        rw [hs] at h; simp at h; subst h
        have := calls_uvSkeleton E all c.id idx i hb hr
        rw [hface, hv] at this; simpa using this) hsk, hs]
    rfl
  · rw [calls_assemble E all grid _ (Or.inl rfl) f (fun _ _ => true)
      (by rw [hr]; rfl) (fun idx s h => by
        rw [hs] at h; simp at h; subst h
        have := calls_vSkeleton E all c.id idx i hb (by rw [hr]; rfl)
        rw [hface, hv] at this; simpa using this) hsk, hs]
    rfl

/-- **C21.** If no intersection of a cell is skipped, the index handed to the local operator with each of its intersections
is the position of the intersection in the iteration. -/
theorem C21_intersection_index_partial (e : Event) (he : e ∈ assemble E all grid) (hk : IsectKind e.kind)
    (hs : ∀ c ∈ grid, c.id = e.cell → ∀ i ∈ c.isects, ∀ idx, E.skipIntersection c.id i.face idx = false) :
    ∃ c ∈ grid, c.id = e.cell ∧ ∃ i, c.isects[e.index]? = some i ∧ i.face = e.face := by
  have hk' := hk
  unfold assemble at he
  simp only [List.mem_append, List.mem_singleton] at he
  rcases he with (rfl | he) | rfl
  · simp [IsectKind] at hk
  · obtain ⟨c, hc, he⟩ := List.mem_flatMap.mp he
    have hcell := visitCell_cell E all c e he
    obtain ⟨k, i, h1, h2⟩ := loopIsects_index E all c.id c.isects (hs c hc hcell.symm) 0 e
      (visitCell_isect E all c e he hk')
    obtain ⟨g1, g2, g3⟩ := visitIsect_face E all _ _ _ _ h2
    refine ⟨c, hc, hcell.symm, i, ?_, g1.symm⟩
    rw [g3, Nat.zero_add]; exact h1
  · simp [IsectKind] at hk

/-- **C62.** Every assembly, of any grid with any engine, respects the protocol: `preAssembly` first, `postAssembly` last; each
assembly method is called only while the spaces of its cell (and neighbour) are bound and the coefficients it needs are
loaded; and every bind is matched by an unbind. -/
theorem C62_protocol : (assemble E all grid).foldlM Protocol.step .start = some .done := by
  show accept .start (assemble E all grid) = some .done
  unfold assemble
  rw [accept_append, accept_append]
  have h1 : accept .start [⟨.preAssembly, 0, 0, 0, 0⟩] = some .ready := rfl
  rw [h1, Option.bind_some, accept_cells, Option.bind_some]
  rfl

/-- **C64.** The spaces are bound to an outside cell only across an intersection that has a neighbour, and this neighbour
belongs to the partitions of the entity set; the processor methods are called exactly for the other intersections that are not
at the domain boundary. -/
theorem C64_outside_cells_are_in_entity_set (e : Event) (he : e ∈ assemble E all grid) :
    (e.kind = .assembleVSkeleton ∨ e.kind = .assembleUVSkeleton ∨ e.kind = .onBindLFSVOutside →
      ∃ c ∈ grid, c.id = e.cell ∧ ∃ i ∈ c.isects, i.face = e.face ∧ i.outside = e.outside ∧ Interior all i) ∧
    (e.kind = .assembleVProcessor ∨ e.kind = .assembleUVProcessor →
      ∃ c ∈ grid, c.id = e.cell ∧ ∃ i ∈ c.isects, i.face = e.face ∧ ¬ Interior all i ∧
        (i.neighbor = true ∨ i.boundary = false)) := by
  unfold assemble at he
  simp only [List.mem_append, List.mem_singleton] at he
  rcases he with (rfl | he) | rfl
  · simp
  · obtain ⟨c, hc, he⟩ := List.mem_flatMap.mp he
    have hcell := (visitCell_cell E all c e he).symm
    have hmem : (e.kind = .assembleVSkeleton ∨ e.kind = .assembleUVSkeleton ∨ e.kind = .onBindLFSVOutside ∨
        e.kind = .assembleVProcessor ∨ e.kind = .assembleUVProcessor) →
        ∃ i ∈ c.isects, ∃ idx, e ∈ visitIsect E all c.id idx i := by
      intro hk
      exact loopIsects_mem E all _ _ _ _ (visitCell_outside E all c e he hk)
    constructor
    · intro hk
      obtain ⟨i, hi, idx, h⟩ := hmem (by tauto)
      refine ⟨c, hc, hcell, i, hi, (visitIsect_face E all _ _ _ _ h).1.symm, ?_⟩
      exact (visitIsect_type E all _ _ _ e h).1 hk
    · intro hk
      obtain ⟨i, hi, idx, h⟩ := hmem (by tauto)
      refine ⟨c, hc, hcell, i, hi, (visitIsect_face E all _ _ _ _ h).1.symm, ?_⟩
      exact (visitIsect_type E all _ _ _ e h).2 hk
  · simp

end

/-- An engine without skipping that requires everything. -/
def plainEngine (twoSided interiorOnly : Bool) : Engine :=
  { uvSkeleton := true, vSkeleton := false, uvBoundary := true, vBoundary := true, uvPost := true, vPost := false,
    twoSided := twoSided, interiorOnly := interiorOnly, skipEntity := fun _ => false,
    skipIntersection := fun _ _ _ => false }

/-- Two cells in a row: boundary face 0, interior face 1, boundary face 2, and a face 3 to another process. -/
def twoCells : List Cell :=
  [⟨5, [⟨0, false, true, 0, false, false⟩, ⟨1, true, false, 7, true, true⟩]⟩,
   ⟨7, [⟨1, true, false, 5, true, true⟩, ⟨2, false, true, 0, false, false⟩, ⟨3, true, false, 9, true, false⟩]⟩]

/-- The hypotheses of C20, C62 and C63 are met by this grid. -/
example : InteriorFace true twoCells 1 (twoCells[0]) (twoCells[1]) ∧ BoundaryFace twoCells 2 (twoCells[1]) ∧
    ProcessFace true twoCells 3 (twoCells[1]) ∧ (twoCells.map Cell.id).Nodup := by
  refine ⟨⟨_, _, rfl, rfl, rfl, by decide, ⟨rfl, Or.inl rfl⟩, ⟨rfl, Or.inl rfl⟩, rfl, rfl⟩, ⟨_, rfl, rfl, rfl⟩,
    ⟨_, rfl, ⟨rfl, Or.inl rfl⟩, rfl⟩, by decide⟩

/-- **C21** is false of the code: after a skipped intersection the index lags behind the position, because the loop continues
before the counter is incremented. -/
theorem C21_intersection_index_false :
    ¬ ∀ (E : Engine) (all : Bool) (grid : List Cell) (e : Event), e ∈ assemble E all grid → IsectKind e.kind →
      ∃ c ∈ grid, c.id = e.cell ∧ ∃ i, c.isects[e.index]? = some i ∧ i.face = e.face := by
  intro h
  obtain ⟨c, hc, -, i, hi, hface⟩ := h { plainEngine false false with skipIntersection := fun _ f _ => f == 0 } true
    [twoCells[0], ⟨3, [⟨0, false, true, 0, false, false⟩, ⟨1, false, true, 0, false, false⟩]⟩]
    ⟨.assembleVBoundary, 3, 1, 0, 0⟩ (by decide) (by simp [IsectKind])
  simp only [List.mem_cons, List.not_mem_nil, or_false] at hc
  rcases hc with rfl | rfl
  · simp [twoCells] at hi; rw [← hi] at hface; simp at hface
  · simp at hi; rw [← hi] at hface; simp at hface

/-- A cell that is its own (periodic) neighbour: in one-sided mode this face is never visited, since neither side has the
larger index. (This is why C20 is about faces between different cells.) -/
theorem C20_self_neighbour_never_visited :
    calls .assembleUVSkeleton 0 (assemble (plainEngine false false) true
      [⟨4, [⟨0, true, true, 4, true, true⟩, ⟨0, true, true, 4, true, true⟩]⟩]) = 0 := by decide

end Verif
