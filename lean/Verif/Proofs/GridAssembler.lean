import Verif.Spec.GridAssembler
import Mathlib.Data.List.Basic
import Mathlib.Data.List.Count
import Mathlib.Algebra.BigOperators.Group.List.Basic
/-
Helper lemmas for the grid traversal.
-/
namespace Verif.GridAssembler

theorem classify_interior (all : Bool) (i : Isect) (h : Interior all i) :
    classify all i = .skeleton ∨ classify all i = .periodic := by
  obtain ⟨f, n, b, o, oc, oi⟩ := i
  obtain ⟨h1, h2⟩ := h
  simp only at h1 h2
  subst h1
  unfold classify
  cases b <;> cases all <;> cases oc <;> simp_all

theorem classify_boundary (all : Bool) (i : Isect) (h : i.neighbor = false ∧ i.boundary = true) :
    classify all i = .boundary := by
  obtain ⟨f, n, b, o, oc, oi⟩ := i
  obtain ⟨h1, h2⟩ := h
  simp only at h1 h2
  subst h1; subst h2
  simp [classify]

/-- The face methods. -/
def FaceKind (k : Kind) : Prop :=
  k = .assembleVSkeleton ∨ k = .assembleUVSkeleton ∨ k = .assembleVBoundary ∨ k = .assembleUVBoundary

theorem visitIsect_face (E : Engine) (all : Bool) (c idx : Nat) (i : Isect) :
    ∀ e ∈ visitIsect E all c idx i, e.face = i.face ∧ e.cell = c ∧ e.index = idx := by
  intro e he
  unfold visitIsect at he
  split at he
  · split at he
    · split at he
      · split at he <;> simp at he <;> aesop
      · simp at he
    · simp at he
  · split at he
    · split at he
      · split at he <;> simp at he <;> aesop
      · simp at he
    · simp at he
  · split at he
    · split at he <;> simp at he <;> aesop
    · simp at he
  · split at he
    · split at he <;> simp at he <;> aesop
    · simp at he

theorem calls_append (k : Kind) (f : Nat) (a b : List Event) : calls k f (a ++ b) = calls k f a + calls k f b := by
  simp [calls]

theorem calls_nil (k : Kind) (f : Nat) : calls k f [] = 0 := rfl

theorem calls_other_face (E : Engine) (all : Bool) (c idx : Nat) (i : Isect) (k : Kind) (f : Nat) (h : i.face ≠ f) :
    calls k f (visitIsect E all c idx i) = 0 := by
  unfold calls
  rw [List.countP_eq_zero]
  intro e he hd
  have := (visitIsect_face E all c idx i e he).1
  simp only [decide_eq_true_eq] at hd
  exact h (by rw [← this]; exact hd.2)

theorem calls_loop (E : Engine) (all : Bool) (c : Nat) (k : Kind) (f : Nat) (p : Isect → Bool) (is : List Isect)
    (hp : ∀ idx, ∀ i ∈ is, i.face = f → calls k f (visitIsect E all c idx i) = if p i then 1 else 0)
    (hs : ∀ idx, ∀ i ∈ is, i.face = f → E.skipIntersection c f idx = false) :
    ∀ idx, calls k f (loopIsects E all c idx is) = (is.filter fun i => i.face = f).countP p := by
  induction is with
  | nil => intro idx; rfl
  | cons i is ih =>
    intro idx
    have ih' := ih (fun idx j hj => hp idx j (List.mem_cons_of_mem _ hj))
      (fun idx j hj => hs idx j (List.mem_cons_of_mem _ hj))
    unfold loopIsects
    by_cases hf : i.face = f
    · have hsk := hs idx i List.mem_cons_self hf
      rw [hf, hsk]
      simp only [Bool.false_eq_true, if_false]
      rw [calls_append, ih', hp idx i List.mem_cons_self hf, List.filter_cons_of_pos (by simp [hf]),
        List.countP_cons]
      omega
    · rw [List.filter_cons_of_neg (by simp [hf])]
      split
      · exact ih' _
      · rw [calls_append, ih', calls_other_face E all c idx i k f hf]; omega

theorem calls_cell (E : Engine) (all : Bool) (c : Cell) (k : Kind) (hk : FaceKind k) (f : Nat) (p : Isect → Bool)
    (hreq : (E.uvSkeleton || E.vSkeleton || E.uvBoundary || E.vBoundary) = true)
    (hp : ∀ idx, ∀ i ∈ c.isects, i.face = f → calls k f (visitIsect E all c.id idx i) = if p i then 1 else 0)
    (hs : ∀ idx, ∀ i ∈ c.isects, i.face = f → E.skipEntity c.id = false ∧ E.skipIntersection c.id f idx = false) :
    calls k f (visitCell E all c) = (c.isects.filter fun i => i.face = f).countP p := by
  unfold visitCell
  by_cases hsk : E.skipEntity c.id = true
  · rw [if_pos hsk]
    have : c.isects.filter (fun i => i.face = f) = [] := by
      rw [List.filter_eq_nil_iff]
      intro i hi hf
      rw [(hs 0 i hi (by simpa using hf)).1] at hsk
      simp at hsk
    rw [this]; rfl
  · rw [if_neg hsk, if_pos hreq]
    simp only [calls_append]
    rw [calls_loop E all c.id k f p c.isects hp (fun idx i hi hf => (hs idx i hi hf).2)]
    have h1 : calls k f [⟨.onBindLFSV, c.id, 0, 0, 0⟩, ⟨.assembleVVolume, c.id, 0, 0, 0⟩, ⟨.onBindLFSUV, c.id, 0, 0, 0⟩,
      ⟨.loadInside, c.id, 0, 0, 0⟩, ⟨.assembleUVVolume, c.id, 0, 0, 0⟩] = 0 := by
      rcases hk with rfl | rfl | rfl | rfl <;> simp [calls]
    have h2 : calls k f (if E.uvPost || E.vPost then
      [⟨.assembleVVolumePostSkeleton, c.id, 0, 0, 0⟩] ++
      (if E.uvPost then [⟨.assembleUVVolumePostSkeleton, c.id, 0, 0, 0⟩] else [])
      else []) = 0 := by
      rcases hk with rfl | rfl | rfl | rfl <;> split <;> (try split) <;> simp [calls]
    have h3 : calls k f [⟨.onUnbindLFSUV, c.id, 0, 0, 0⟩, ⟨.onUnbindLFSV, c.id, 0, 0, 0⟩] = 0 := by
      rcases hk with rfl | rfl | rfl | rfl <;> simp [calls]
    rw [h1, h2, h3]
    omega

/-- The number of calls of a face method is the number of sides of the face that cause a call. -/
theorem calls_assemble (E : Engine) (all : Bool) (grid : List Cell) (k : Kind) (hk : FaceKind k) (f : Nat)
    (p : Cell → Isect → Bool)
    (hreq : (E.uvSkeleton || E.vSkeleton || E.uvBoundary || E.vBoundary) = true)
    (hp : ∀ idx, ∀ s ∈ sides grid f, calls k f (visitIsect E all s.1.id idx s.2) = if p s.1 s.2 then 1 else 0)
    (hs : ∀ idx, ∀ s ∈ sides grid f, E.skipEntity s.1.id = false ∧ E.skipIntersection s.1.id f idx = false) :
    calls k f (assemble E all grid) = (sides grid f).countP fun s => p s.1 s.2 := by
  unfold assemble
  rw [calls_append, calls_append]
  have h1 : calls k f [⟨.preAssembly, 0, 0, 0, 0⟩] = 0 := by rcases hk with rfl | rfl | rfl | rfl <;> simp [calls]
  have h2 : calls k f [⟨.postAssembly, 0, 0, 0, 0⟩] = 0 := by rcases hk with rfl | rfl | rfl | rfl <;> simp [calls]
  rw [h1, h2]
  have hgoal : calls k f (grid.flatMap (visitCell E all)) = (sides grid f).countP fun s => p s.1 s.2 := by
    induction grid with
    | nil => rfl
    | cons c grid ih =>
      have hsub : sides (c :: grid) f = ((c.isects.filter fun i => i.face = f).map fun i => (c, i)) ++ sides grid f := rfl
      rw [hsub] at hp hs ⊢
      have hmem : ∀ i ∈ c.isects, i.face = f → (c, i) ∈ ((c.isects.filter fun i => i.face = f).map fun i => (c, i)) :=
        fun i hi hf => List.mem_map.mpr ⟨i, List.mem_filter.mpr ⟨hi, by simp [hf]⟩, rfl⟩
      rw [List.flatMap_cons, calls_append, ih (fun idx s h => hp idx s (List.mem_append.mpr (Or.inr h)))
        (fun idx s h => hs idx s (List.mem_append.mpr (Or.inr h))),
        calls_cell E all c k hk f (p c) hreq
          (fun idx i hi hf => hp idx (c, i) (List.mem_append.mpr (Or.inl (hmem i hi hf))))
          (fun idx i hi hf => hs idx (c, i) (List.mem_append.mpr (Or.inl (hmem i hi hf)))),
        List.countP_append, List.countP_map]
      rfl
  rw [hgoal]; omega

theorem mem_sides (grid : List Cell) (f : Nat) (s : Cell × Isect) (h : s ∈ sides grid f) : s.2.face = f := by
  unfold sides at h
  obtain ⟨c, _, h⟩ := List.mem_flatMap.mp h
  obtain ⟨i, hi, rfl⟩ := List.mem_map.mp h
  simpa using (List.mem_filter.mp hi).2

theorem calls_vSkeleton (E : Engine) (all : Bool) (c idx : Nat) (i : Isect) (h : Interior all i)
    (hreq : (E.uvSkeleton || E.vSkeleton) = true) :
    calls .assembleVSkeleton i.face (visitIsect E all c idx i) = if visitFace E c i then 1 else 0 := by
  unfold visitIsect
  rcases classify_interior all i h with hc | hc <;> rw [hc] <;> simp only [hreq, if_true] <;>
  (split
   · split <;> simp [calls]
   · simp [calls])

theorem calls_uvSkeleton (E : Engine) (all : Bool) (c idx : Nat) (i : Isect) (h : Interior all i)
    (hreq : E.uvSkeleton = true) :
    calls .assembleUVSkeleton i.face (visitIsect E all c idx i) = if visitFace E c i then 1 else 0 := by
  unfold visitIsect
  rcases classify_interior all i h with hc | hc <;> rw [hc] <;> simp only [hreq, Bool.true_or, if_true] <;>
  (split <;> simp [calls])

theorem calls_vBoundary (E : Engine) (all : Bool) (c idx : Nat) (i : Isect) (h : i.neighbor = false ∧ i.boundary = true)
    (hreq : (E.uvBoundary || E.vBoundary) = true) :
    calls .assembleVBoundary i.face (visitIsect E all c idx i) = 1 := by
  unfold visitIsect
  rw [classify_boundary all i h]
  simp only [hreq, if_true]
  split <;> simp [calls]

theorem calls_uvBoundary (E : Engine) (all : Bool) (c idx : Nat) (i : Isect) (h : i.neighbor = false ∧ i.boundary = true)
    (hreq : E.uvBoundary = true) :
    calls .assembleUVBoundary i.face (visitIsect E all c idx i) = 1 := by
  unfold visitIsect
  rw [classify_boundary all i h]
  simp [hreq, calls]

/-! Calls for cells -/

theorem cellCalls_append (k : Kind) (c : Nat) (a b : List Event) :
    cellCalls k c (a ++ b) = cellCalls k c a + cellCalls k c b := by simp [cellCalls]

/-- The volume methods. -/
def VolumeKind (k : Kind) : Prop :=
  k = .assembleVVolume ∨ k = .assembleUVVolume ∨ k = .assembleVVolumePostSkeleton ∨ k = .assembleUVVolumePostSkeleton

theorem visitIsect_kind (E : Engine) (all : Bool) (c idx : Nat) (i : Isect) :
    ∀ e ∈ visitIsect E all c idx i, ¬ VolumeKind e.kind := by
  intro e he hk
  unfold visitIsect at he
  unfold VolumeKind at hk
  split at he
  · split at he
    · split at he
      · split at he <;> simp at he <;> aesop
      · simp at he
    · simp at he
  · split at he
    · split at he
      · split at he <;> simp at he <;> aesop
      · simp at he
    · simp at he
  · split at he
    · split at he <;> simp at he <;> aesop
    · simp at he
  · split at he
    · split at he <;> simp at he <;> aesop
    · simp at he

theorem loopIsects_mem (E : Engine) (all : Bool) (c : Nat) (is : List Isect) : ∀ (idx : Nat) (e : Event),
    e ∈ loopIsects E all c idx is → ∃ i ∈ is, ∃ idx', e ∈ visitIsect E all c idx' i := by
  induction is with
  | nil => intro idx e h; simp [loopIsects] at h
  | cons i is ih =>
    intro idx e h
    unfold loopIsects at h
    split at h
    · obtain ⟨j, hj, r⟩ := ih _ _ h; exact ⟨j, List.mem_cons_of_mem _ hj, r⟩
    · rcases List.mem_append.mp h with h | h
      · exact ⟨i, List.mem_cons_self, idx, h⟩
      · obtain ⟨j, hj, r⟩ := ih _ _ h; exact ⟨j, List.mem_cons_of_mem _ hj, r⟩

/-- Without skipping, the index is the position. -/
theorem loopIsects_index (E : Engine) (all : Bool) (c : Nat) (is : List Isect)
    (hs : ∀ i ∈ is, ∀ idx, E.skipIntersection c i.face idx = false) : ∀ (idx : Nat) (e : Event),
    e ∈ loopIsects E all c idx is → ∃ k i, is[k]? = some i ∧ e ∈ visitIsect E all c (idx + k) i := by
  induction is with
  | nil => intro idx e h; simp [loopIsects] at h
  | cons i is ih =>
    intro idx e h
    unfold loopIsects at h
    rw [hs i List.mem_cons_self idx] at h
    simp only [Bool.false_eq_true, if_false] at h
    rcases List.mem_append.mp h with h | h
    · exact ⟨0, i, rfl, h⟩
    · obtain ⟨k, j, h1, h2⟩ := ih (fun j hj => hs j (List.mem_cons_of_mem _ hj)) _ _ h
      exact ⟨k + 1, j, by simpa using h1, by rw [show idx + (k + 1) = idx + 1 + k by omega]; exact h2⟩

/-- The calls for the intersections of a cell. -/
def IsectKind (k : Kind) : Prop :=
  k = .assembleVSkeleton ∨ k = .assembleUVSkeleton ∨ k = .assembleVBoundary ∨ k = .assembleUVBoundary ∨
  k = .assembleVProcessor ∨ k = .assembleUVProcessor

theorem visitCell_isect (E : Engine) (all : Bool) (c : Cell) (e : Event) (h : e ∈ visitCell E all c)
    (hk : IsectKind e.kind) : e ∈ loopIsects E all c.id 0 c.isects := by
  unfold visitCell at h
  split at h
  · simp at h
  · simp only [List.mem_append] at h
    unfold IsectKind at hk
    rcases h with ((h | h) | h) | h
    · simp at h; aesop
    · split at h
      · exact h
      · simp at h
    · split at h
      · split at h <;> simp at h <;> aesop
      · simp at h
    · simp at h; aesop

theorem visitCell_outside (E : Engine) (all : Bool) (c : Cell) (e : Event) (h : e ∈ visitCell E all c)
    (hk : e.kind = .assembleVSkeleton ∨ e.kind = .assembleUVSkeleton ∨ e.kind = .onBindLFSVOutside ∨
        e.kind = .assembleVProcessor ∨ e.kind = .assembleUVProcessor) : e ∈ loopIsects E all c.id 0 c.isects := by
  unfold visitCell at h
  split at h
  · simp at h
  · simp only [List.mem_append] at h
    rcases h with ((h | h) | h) | h
    · simp at h; aesop
    · split at h
      · exact h
      · simp at h
    · split at h
      · split at h <;> simp at h <;> aesop
      · simp at h
    · simp at h; aesop

theorem classify_skeleton (all : Bool) (i : Isect) (h : classify all i = .skeleton ∨ classify all i = .periodic) :
    Interior all i := by
  unfold classify at h
  unfold Interior
  rcases hn : i.neighbor <;> rcases hb : i.boundary <;> rcases all <;> rcases hc : i.outsideContained <;>
    simp_all

theorem classify_processor (all : Bool) (i : Isect) (h : classify all i = .processor) :
    ¬ Interior all i ∧ (i.neighbor = true ∨ i.boundary = false) := by
  unfold classify at h
  unfold Interior
  rcases hn : i.neighbor <;> rcases hb : i.boundary <;> rcases all <;> rcases hc : i.outsideContained <;>
    simp_all

theorem visitIsect_type (E : Engine) (all : Bool) (c idx : Nat) (i : Isect) (e : Event)
    (h : e ∈ visitIsect E all c idx i) :
    (e.kind = .assembleVSkeleton ∨ e.kind = .assembleUVSkeleton ∨ e.kind = .onBindLFSVOutside →
      i.outside = e.outside ∧ Interior all i) ∧
    (e.kind = .assembleVProcessor ∨ e.kind = .assembleUVProcessor →
      ¬ Interior all i ∧ (i.neighbor = true ∨ i.boundary = false)) := by
  unfold visitIsect at h
  split at h
  · rename_i ht
    have := classify_skeleton all i (Or.inl ht)
    split at h
    · split at h
      · split at h <;> simp at h <;> aesop
      · simp at h
    · simp at h
  · rename_i ht
    have := classify_skeleton all i (Or.inr ht)
    split at h
    · split at h
      · split at h <;> simp at h <;> aesop
      · simp at h
    · simp at h
  · split at h
    · split at h <;> simp at h <;> aesop
    · simp at h
  · rename_i ht
    have := classify_processor all i ht
    split at h
    · split at h <;> simp at h <;> aesop
    · simp at h

theorem visitCell_cell (E : Engine) (all : Bool) (c : Cell) (e : Event) (h : e ∈ visitCell E all c) : e.cell = c.id := by
  unfold visitCell at h
  split at h
  · simp at h
  · simp only [List.mem_append] at h
    rcases h with ((h | h) | h) | h
    · simp at h; aesop
    · split at h
      · obtain ⟨i, _, idx, h⟩ := loopIsects_mem E all _ _ _ _ h
        exact (visitIsect_face E all _ _ _ _ h).2.1
      · simp at h
    · split at h
      · split at h <;> simp at h <;> aesop
      · simp at h
    · simp at h; aesop

theorem cellCalls_other (E : Engine) (all : Bool) (d : Cell) (k : Kind) (c : Nat) (h : d.id ≠ c) :
    cellCalls k c (visitCell E all d) = 0 := by
  unfold cellCalls
  rw [List.countP_eq_zero]
  intro e he hd
  simp only [decide_eq_true_eq] at hd
  exact h (by rw [← visitCell_cell E all d e he]; exact hd.2)

theorem cellCalls_loop (E : Engine) (all : Bool) (d : Nat) (is : List Isect) (k : Kind) (hk : VolumeKind k) (c : Nat) :
    cellCalls k c (loopIsects E all d 0 is) = 0 := by
  unfold cellCalls
  rw [List.countP_eq_zero]
  intro e he hd
  simp only [decide_eq_true_eq] at hd
  obtain ⟨i, _, idx, h⟩ := loopIsects_mem E all _ _ _ _ he
  exact visitIsect_kind E all _ _ _ e h (by rw [hd.1]; exact hk)

/-- Which volume methods are required. -/
def volumeRequired (E : Engine) (k : Kind) : Bool :=
  match k with
  | .assembleVVolumePostSkeleton => E.uvPost || E.vPost
  | .assembleUVVolumePostSkeleton => E.uvPost
  | _ => true

theorem cellCalls_self (E : Engine) (all : Bool) (d : Cell) (k : Kind) (hk : VolumeKind k) :
    cellCalls k d.id (visitCell E all d) = if E.skipEntity d.id = false ∧ volumeRequired E k = true then 1 else 0 := by
  unfold visitCell
  by_cases hsk : E.skipEntity d.id = true
  · rw [if_pos hsk]; simp [cellCalls, hsk]
  · have hsk' : E.skipEntity d.id = false := by simpa using hsk
    rw [if_neg hsk]
    simp only [cellCalls_append]
    have h1 : cellCalls k d.id (if E.uvSkeleton || E.vSkeleton || E.uvBoundary || E.vBoundary then
        loopIsects E all d.id 0 d.isects else []) = 0 := by
      split
      · exact cellCalls_loop E all d.id _ k hk d.id
      · rfl
    rw [h1, hsk']
    rcases hk with rfl | rfl | rfl | rfl <;> cases hu : E.uvPost <;> cases hv : E.vPost <;>
      simp [cellCalls, volumeRequired, hu, hv]

theorem cellCalls_assemble (E : Engine) (all : Bool) (grid : List Cell) (hn : (grid.map Cell.id).Nodup) (k : Kind)
    (hk : VolumeKind k) (c : Nat) :
    cellCalls k c (assemble E all grid)
      = if c ∈ grid.map Cell.id ∧ E.skipEntity c = false ∧ volumeRequired E k = true then 1 else 0 := by
  unfold assemble
  rw [cellCalls_append, cellCalls_append]
  have h1 : cellCalls k c [⟨.preAssembly, 0, 0, 0, 0⟩] = 0 := by
    rcases hk with rfl | rfl | rfl | rfl <;> simp [cellCalls]
  have h2 : cellCalls k c [⟨.postAssembly, 0, 0, 0, 0⟩] = 0 := by
    rcases hk with rfl | rfl | rfl | rfl <;> simp [cellCalls]
  rw [h1, h2]
  have hgoal : cellCalls k c (grid.flatMap (visitCell E all))
      = if c ∈ grid.map Cell.id ∧ E.skipEntity c = false ∧ volumeRequired E k = true then 1 else 0 := by
    induction grid with
    | nil => simp [cellCalls]
    | cons d grid ih =>
      simp only [List.map_cons, List.nodup_cons] at hn
      rw [List.flatMap_cons, cellCalls_append, ih hn.2]
      by_cases hd : d.id = c
      · subst hd
        rw [cellCalls_self E all d k hk]
        have hz : ¬ (d.id ∈ grid.map Cell.id ∧ E.skipEntity d.id = false ∧ volumeRequired E k = true) := fun h => hn.1 h.1
        rw [if_neg hz, Nat.add_zero]
        have hm : d.id ∈ (d :: grid).map Cell.id := by simp
        by_cases hq : E.skipEntity d.id = false ∧ volumeRequired E k = true
        · rw [if_pos hq, if_pos ⟨hm, hq⟩]
        · rw [if_neg hq, if_neg (fun h => hq h.2)]
      · rw [cellCalls_other E all d k c hd]
        have : (c ∈ (d :: grid).map Cell.id) ↔ c ∈ grid.map Cell.id := by
          simp only [List.map_cons, List.mem_cons]
          exact ⟨fun h => h.resolve_left fun e => hd e.symm, Or.inr⟩
        simp only [this]; omega
  rw [hgoal]; omega

/-! Protocol -/

/-- Run the protocol. -/
def accept (s : Protocol) (t : List Event) : Option Protocol := t.foldlM Protocol.step s

theorem accept_append (s : Protocol) (a b : List Event) : accept s (a ++ b) = (accept s a).bind fun s' => accept s' b := by
  unfold accept; rw [List.foldlM_append]; rfl

theorem accept_visit (E : Engine) (all : Bool) (c idx : Nat) (i : Isect) :
    accept (.loaded c) (visitIsect E all c idx i) = some (.loaded c) := by
  unfold visitIsect
  split
  · split
    · split
      · split <;> simp [accept, Protocol.step]
      · rfl
    · rfl
  · split
    · split
      · split <;> simp [accept, Protocol.step]
      · rfl
    · rfl
  · split
    · split <;> simp [accept, Protocol.step]
    · rfl
  · split
    · split <;> simp [accept, Protocol.step]
    · rfl

theorem accept_loop (E : Engine) (all : Bool) (c : Nat) (is : List Isect) : ∀ idx,
    accept (.loaded c) (loopIsects E all c idx is) = some (.loaded c) := by
  induction is with
  | nil => intro idx; rfl
  | cons i is ih =>
    intro idx
    unfold loopIsects
    split
    · exact ih _
    · rw [accept_append, accept_visit, Option.bind_some, ih]

theorem accept_cell (E : Engine) (all : Bool) (c : Cell) : accept .ready (visitCell E all c) = some .ready := by
  unfold visitCell
  split
  · rfl
  · rw [accept_append, accept_append, accept_append]
    have h1 : accept .ready [⟨.onBindLFSV, c.id, 0, 0, 0⟩, ⟨.assembleVVolume, c.id, 0, 0, 0⟩,
      ⟨.onBindLFSUV, c.id, 0, 0, 0⟩, ⟨.loadInside, c.id, 0, 0, 0⟩, ⟨.assembleUVVolume, c.id, 0, 0, 0⟩]
      = some (.loaded c.id) := by simp [accept, Protocol.step]
    rw [h1, Option.bind_some]
    have h2 : accept (.loaded c.id) (if E.uvSkeleton || E.vSkeleton || E.uvBoundary || E.vBoundary then
        loopIsects E all c.id 0 c.isects else []) = some (.loaded c.id) := by
      split
      · exact accept_loop E all _ _ _
      · rfl
    rw [h2, Option.bind_some]
    have h3 : accept (.loaded c.id) (if E.uvPost || E.vPost then
      [⟨.assembleVVolumePostSkeleton, c.id, 0, 0, 0⟩] ++
      (if E.uvPost then [⟨.assembleUVVolumePostSkeleton, c.id, 0, 0, 0⟩] else [])
      else []) = some (.loaded c.id) := by
      split
      · split <;> simp [accept, Protocol.step]
      · rfl
    rw [h3, Option.bind_some]
    simp [accept, Protocol.step]

theorem accept_cells (E : Engine) (all : Bool) (grid : List Cell) :
    accept .ready (grid.flatMap (visitCell E all)) = some .ready := by
  induction grid with
  | nil => rfl
  | cons c grid ih => rw [List.flatMap_cons, accept_append, accept_cell, Option.bind_some, ih]

end Verif.GridAssembler
