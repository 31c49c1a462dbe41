import Verif.Proofs.FastDGMatrix
/-
Helpers for the pattern theorems of `Verif.Props.FastDG`.
-/
namespace Verif.FastDG
open GridAssembler

theorem beginsAtZero_append {a b : List (Nat × Nat)} (ha : BeginsAtZero a) (hb : BeginsAtZero b) : BeginsAtZero (a ++ b) := by
  rcases ha with rfl | ha
  · simpa using hb
  · right
    cases a with
    | nil => simp at ha
    | cons x a => simpa using ha

theorem addFast_default (v u : Nat) (p lF lD : List (Nat × Nat)) (hp : BeginsAtZero p) (h : ∀ q, q ∈ lF ↔ q ∈ lD) :
    ∃ l, addFast v u p lF = some l ∧ ∀ q, q ∈ l ↔ q ∈ lD ++ p.map fun _ => (v, u) := by
  rcases hp with rfl | hp
  · exact ⟨lF, rfl, by simpa using h⟩
  · cases p with
    | nil => simp at hp
    | cons x p =>
      simp only [List.head?_cons, Option.some.injEq] at hp
      subst hp
      refine ⟨lF ++ [(v, u)], by simp [addFast, fastIndex], fun q => ?_⟩
      simp only [List.mem_append, h q, List.not_mem_nil, or_false, List.map_cons, List.mem_cons, List.mem_map]
      constructor
      · rintro (h | h)
        · exact .inl h
        · exact .inr (.inl h)
      · rintro (h | h | ⟨_, _, h⟩)
        · exact .inl h
        · exact .inr h
        · exact .inr h.symm

/-- The two pattern engines in corresponding states. -/
def SamePattern (f d : PState) : Prop :=
  (∀ q, q ∈ f.links ↔ q ∈ d.links) ∧ f.loc = d.loc ∧ f.sn = d.sn ∧ f.ns = d.ns ∧ BeginsAtZero f.loc ∧ BeginsAtZero f.sn ∧ BeginsAtZero f.ns

theorem pattern_step (lop : PLop) (hl : ∀ e, BeginsAtZero (lop.pattern e)) (hs : ∀ e, BeginsAtZero (lop.patternSkeleton e).1 ∧
    BeginsAtZero (lop.patternSkeleton e).2) (e : Event) (f d : PState) (h : SamePattern f d) :
    ∃ f' d', PState.step addFast lop f e = some f' ∧ PState.step addDefault lop d e = some d' ∧ SamePattern f' d' := by
  obtain ⟨h1, h2, h3, h4, h5, h6, h7⟩ := h
  have keep : SamePattern f d := ⟨h1, h2, h3, h4, h5, h6, h7⟩
  obtain ⟨k, c, fc, i, o⟩ := e
  have hloc : ∀ k', (k' = .assembleUVVolume ∨ k' = .assembleUVBoundary ∨ k' = .assembleUVVolumePostSkeleton) →
      ∃ f' d', PState.step addFast lop f ⟨k', c, fc, i, o⟩ = some f' ∧
        PState.step addDefault lop d ⟨k', c, fc, i, o⟩ = some d' ∧ SamePattern f' d' := by
    intro k' hk'
    by_cases hf : lop.flag k' = true
    · refine ⟨{ f with loc := f.loc ++ lop.pattern ⟨k', c, fc, i, o⟩ }, { d with loc := d.loc ++ lop.pattern ⟨k', c, fc, i, o⟩ }, ?_, ?_, ?_⟩
      · rcases hk' with rfl | rfl | rfl <;> simp [PState.step, hf]
      · rcases hk' with rfl | rfl | rfl <;> simp [PState.step, hf]
      · exact ⟨h1, by rw [h2], h3, h4, beginsAtZero_append h5 (hl _), h6, h7⟩
    · refine ⟨f, d, ?_, ?_, keep⟩
      · rcases hk' with rfl | rfl | rfl <;> simp [PState.step, hf]
      · rcases hk' with rfl | rfl | rfl <;> simp [PState.step, hf]
  cases k
  case assembleUVVolume => exact hloc _ (by simp)
  case assembleUVBoundary => exact hloc _ (by simp)
  case assembleUVVolumePostSkeleton => exact hloc _ (by simp)
  case assembleUVSkeleton =>
    by_cases hf : lop.flag .assembleUVSkeleton = true
    · have hss := hs ⟨.assembleUVSkeleton, c, fc, i, o⟩
      refine ⟨{ f with
          sn := f.sn ++ (lop.patternSkeleton ⟨.assembleUVSkeleton, c, fc, i, o⟩).1
          ns := f.ns ++ (lop.patternSkeleton ⟨.assembleUVSkeleton, c, fc, i, o⟩).2 },
        { d with
          sn := d.sn ++ (lop.patternSkeleton ⟨.assembleUVSkeleton, c, fc, i, o⟩).1
          ns := d.ns ++ (lop.patternSkeleton ⟨.assembleUVSkeleton, c, fc, i, o⟩).2 }, by simp [PState.step, hf],
        by simp [PState.step, hf], h1, h2, by rw [h3], by rw [h4], h5, beginsAtZero_append h6 hss.1, beginsAtZero_append h7 hss.2⟩
    · exact ⟨f, d, by simp [PState.step, hf], by simp [PState.step, hf], keep⟩
  case onUnbindLFSUVOutside =>
    obtain ⟨l1, e1, q1⟩ := addFast_default c o f.sn f.links d.links h6 h1
    obtain ⟨l2, e2, q2⟩ := addFast_default o c f.ns l1 _ h7 q1
    refine ⟨{ f with links := l2, sn := [], ns := [] },
      { d with links := (d.links ++ d.sn.map fun _ => (c, o)) ++ d.ns.map fun _ => (o, c), sn := [], ns := [] }, ?_, rfl, ?_⟩
    · simp [PState.step, e1, e2]
    · refine ⟨?_, h2, rfl, rfl, h5, .inl rfl, .inl rfl⟩
      rw [← h3, ← h4]; exact q2
  case onUnbindLFSUV =>
    obtain ⟨l1, e1, q1⟩ := addFast_default c c f.loc f.links d.links h5 h1
    refine ⟨{ f with links := l1, loc := [] }, { d with links := d.links ++ d.loc.map fun _ => (c, c), loc := [] }, ?_, rfl, ?_⟩
    · simp [PState.step, e1]
    · refine ⟨?_, rfl, h3, h4, .inl rfl, h6, h7⟩
      rw [← h2]; exact q1
  all_goals exact ⟨f, d, rfl, rfl, keep⟩

theorem pattern_run (lop : PLop) (hl : ∀ e, BeginsAtZero (lop.pattern e)) (hs : ∀ e, BeginsAtZero (lop.patternSkeleton e).1 ∧
    BeginsAtZero (lop.patternSkeleton e).2) (es : List Event) : ∀ f d, SamePattern f d →
    ∃ f' d', es.foldlM (PState.step addFast lop) f = some f' ∧ es.foldlM (PState.step addDefault lop) d = some d' ∧ SamePattern f' d' := by
  induction es with
  | nil => intro f d h; exact ⟨f, d, rfl, rfl, h⟩
  | cons e es ih =>
    intro f d h
    obtain ⟨f1, d1, e1, e2, h1⟩ := pattern_step lop hl hs e f d h
    obtain ⟨f2, d2, e3, e4, h2⟩ := ih f1 d1 h1
    refine ⟨f2, d2, ?_, ?_, h2⟩
    · rw [List.foldlM_cons, e1]; exact e3
    · rw [List.foldlM_cons, e2]; exact e4

/-! Coverage -/

/-- What both `add_pattern` do. -/
def AddOk (add : Nat → Nat → List (Nat × Nat) → List (Nat × Nat) → Option (List (Nat × Nat))) : Prop :=
  ∀ v u p links l, add v u p links = some l → (∀ q ∈ links, q ∈ l) ∧ (p ≠ [] → (v, u) ∈ l)

theorem addDefault_ok : AddOk addDefault := by
  intro v u p links l h
  simp only [addDefault, Option.some.injEq] at h
  subst h
  refine ⟨fun q hq => List.mem_append_left _ hq, fun hp => ?_⟩
  cases p with
  | nil => exact absurd rfl hp
  | cons x p => simp

/-- The cell whose local pattern is being collected. -/
def curCell : Protocol → Option Nat
  | .loaded c | .vOutside c _ | .uvOutside c _ | .outsideLoaded c _ => some c
  | _ => none

/-- Links that are in the pattern or will be added when the spaces are unbound. -/
def PInv (p : Protocol) (seen : List Event) (s : PState) : Prop :=
  (∀ e ∈ seen, e.kind = .assembleUVVolume → (e.cell, e.cell) ∈ s.links ∨ (curCell p = some e.cell ∧ s.loc ≠ [])) ∧
  (∀ e ∈ seen, e.kind = .assembleUVSkeleton → ((e.cell, e.outside) ∈ s.links ∧ (e.outside, e.cell) ∈ s.links) ∨
    (p = .outsideLoaded e.cell e.outside ∧ s.sn ≠ [] ∧ s.ns ≠ []))

theorem pinv_id {p p' : Protocol} {seen : List Event} {s : PState} (h : PInv p seen s) (e : Event)
    (hk : e.kind ≠ .assembleUVVolume ∧ e.kind ≠ .assembleUVSkeleton) (hc : curCell p = curCell p' ∨ curCell p = none)
    (hp : ∀ c n, p = .outsideLoaded c n → p' = p) : PInv p' (seen ++ [e]) s := by
  refine ⟨fun e' he' hk' => ?_, fun e' he' hk' => ?_⟩
  · rcases List.mem_append.mp he' with he' | he'
    · rcases h.1 e' he' hk' with h | ⟨h1, h2⟩
      · exact .inl h
      · right
        rcases hc with hc | hc
        · exact ⟨by rw [← hc]; exact h1, h2⟩
        · rw [hc] at h1; cases h1
    · rw [List.mem_singleton.mp he'] at hk'; exact absurd hk' hk.1
  · rcases List.mem_append.mp he' with he' | he'
    · rcases h.2 e' he' hk' with h | ⟨h1, h2⟩
      · exact .inl h
      · exact .inr ⟨by rw [hp _ _ h1]; exact h1, h2⟩
    · rw [List.mem_singleton.mp he'] at hk'; exact absurd hk' hk.2

theorem pinv_step (add : Nat → Nat → List (Nat × Nat) → List (Nat × Nat) → Option (List (Nat × Nat))) (ha : AddOk add)
    (lop : PLop) (hl : lop.Couples) (p p' : Protocol) (e : Event) (hp : p.step e = some p') (seen : List Event) (s s' : PState)
    (hs : PState.step add lop s e = some s') (h : PInv p seen s) : PInv p' (seen ++ [e]) s' := by
  obtain ⟨hf1, hf2, hne⟩ := hl
  cases trans_of_step hp
  case processor k hk c f i o =>
    rcases hk with rfl | rfl <;> (cases hs; exact pinv_id h _ (by simp) (.inl rfl) (by simp))
  case cellV k hk c f i o =>
    rcases hk with rfl | rfl <;> (cases hs; exact pinv_id h _ (by simp) (.inl rfl) (by simp))
  case cellUV k hk c f i o =>
    have hs' : s' = s ∧ lop.flag k = false ∨ s' = { s with loc := s.loc ++ lop.pattern ⟨k, c, f, i, o⟩ } := by
      by_cases hf : lop.flag k = true
      · right
        rcases hk with rfl | rfl | rfl <;> simp only [PState.step, hf, if_true, Option.some.injEq] at hs <;> exact hs.symm
      · left
        refine ⟨?_, by simpa using hf⟩
        rcases hk with rfl | rfl | rfl <;> simp only [PState.step, hf, Bool.false_eq_true, if_false, Option.some.injEq] at hs <;>
          exact hs.symm
    rcases hs' with ⟨rfl, hf⟩ | rfl
    · refine pinv_id h _ ⟨?_, ?_⟩ (.inl rfl) (by simp)
      · dsimp only
        rintro rfl
        rw [hf1] at hf; cases hf
      · rcases hk with rfl | rfl | rfl <;> simp
    · refine ⟨fun e' he' hk' => ?_, fun e' he' hk' => ?_⟩
      · rcases List.mem_append.mp he' with he' | he'
        · rcases h.1 e' he' hk' with h | ⟨h1, h2⟩
          · exact .inl h
          · exact .inr ⟨h1, by simp [h2]⟩
        · rw [List.mem_singleton.mp he']
          exact .inr ⟨rfl, by simp [(hne _).1]⟩
      · rcases List.mem_append.mp he' with he' | he'
        · rcases h.2 e' he' hk' with h | ⟨h1, h2⟩
          · exact .inl h
          · cases h1
        · rw [List.mem_singleton.mp he'] at hk'
          rcases hk with rfl | rfl | rfl <;> simp at hk'
  case uvSkeleton c f i n =>
    simp only [PState.step, hf2, if_true, Option.some.injEq] at hs
    subst hs
    refine ⟨fun e' he' hk' => ?_, fun e' he' hk' => ?_⟩
    · rcases List.mem_append.mp he' with he' | he'
      · exact h.1 e' he' hk'
      · rw [List.mem_singleton.mp he'] at hk'; simp at hk'
    · rcases List.mem_append.mp he' with he' | he'
      · rcases h.2 e' he' hk' with h | ⟨h1, h2, h3⟩
        · exact .inl h
        · exact .inr ⟨h1, by simp [h2], by simp [h3]⟩
      · rw [List.mem_singleton.mp he']
        exact .inr ⟨rfl, by simp [(hne _).2.1], by simp [(hne _).2.2]⟩
  case unbindUVOut c f i n =>
    simp only [PState.step] at hs
    rcases Option.eq_none_or_eq_some (add c n s.sn s.links) with h1 | ⟨l1, h1⟩
    · rw [h1] at hs; simp at hs
    rw [h1, Option.bind_some] at hs
    rcases Option.eq_none_or_eq_some (add n c s.ns l1) with h2 | ⟨l2, h2⟩
    · rw [h2] at hs; simp at hs
    rw [h2, Option.map_some, Option.some.injEq] at hs
    subst hs
    obtain ⟨a1, a2⟩ := ha _ _ _ _ _ h1
    obtain ⟨b1, b2⟩ := ha _ _ _ _ _ h2
    refine ⟨fun e' he' hk' => ?_, fun e' he' hk' => ?_⟩
    · rcases List.mem_append.mp he' with he' | he'
      · rcases h.1 e' he' hk' with h | ⟨h1, h2⟩
        · exact .inl (b1 _ (a1 _ h))
        · exact .inr ⟨h1, h2⟩
      · rw [List.mem_singleton.mp he'] at hk'; simp at hk'
    · rcases List.mem_append.mp he' with he' | he'
      · left
        rcases h.2 e' he' hk' with h | ⟨h1, h2, h3⟩
        · exact ⟨b1 _ (a1 _ h.1), b1 _ (a1 _ h.2)⟩
        · rw [Protocol.outsideLoaded.injEq] at h1
          rw [← h1.1, ← h1.2]
          exact ⟨b1 _ (a2 h2), b2 h3⟩
      · rw [List.mem_singleton.mp he'] at hk'; simp at hk'
  case unbindUV c f i o =>
    simp only [PState.step] at hs
    rcases Option.eq_none_or_eq_some (add c c s.loc s.links) with h1 | ⟨l1, h1⟩
    · rw [h1] at hs; simp at hs
    rw [h1, Option.map_some, Option.some.injEq] at hs
    subst hs
    obtain ⟨a1, a2⟩ := ha _ _ _ _ _ h1
    refine ⟨fun e' he' hk' => ?_, fun e' he' hk' => ?_⟩
    · rcases List.mem_append.mp he' with he' | he'
      · left
        rcases h.1 e' he' hk' with h | ⟨h1, h2⟩
        · exact a1 _ h
        · simp only [curCell, Option.some.injEq] at h1
          rw [← h1]; exact a2 h2
      · rw [List.mem_singleton.mp he'] at hk'; simp at hk'
    · rcases List.mem_append.mp he' with he' | he'
      · rcases h.2 e' he' hk' with h | ⟨h1, h2⟩
        · exact .inl ⟨a1 _ h.1, a1 _ h.2⟩
        · cases h1
      · rw [List.mem_singleton.mp he'] at hk'; simp at hk'
  all_goals
    cases hs
    first
      | exact pinv_id h _ (by simp) (.inl rfl) (by simp)
      | exact pinv_id h _ (by simp) (.inr rfl) (by simp)

theorem pinv_run (add : Nat → Nat → List (Nat × Nat) → List (Nat × Nat) → Option (List (Nat × Nat))) (ha : AddOk add)
    (lop : PLop) (hl : lop.Couples) (es : List Event) : ∀ (p p' : Protocol), es.foldlM Protocol.step p = some p' →
    ∀ (seen : List Event) (s s' : PState), es.foldlM (PState.step add lop) s = some s' → PInv p seen s → PInv p' (seen ++ es) s' := by
  induction es with
  | nil =>
    intro p p' hp seen s s' hs h
    simp only [List.foldlM_nil, Option.pure_def, Option.some.injEq] at hp hs
    subst hp; subst hs; simpa using h
  | cons e es ih =>
    intro p p' hp seen s s' hs h
    rw [List.foldlM_cons] at hp hs
    rcases Option.eq_none_or_eq_some (p.step e) with h1 | ⟨q, h1⟩
    · rw [h1] at hp; cases hp
    rcases Option.eq_none_or_eq_some (PState.step add lop s e) with h2 | ⟨t, h2⟩
    · rw [h2] at hs; cases hs
    rw [h1] at hp; rw [h2] at hs
    have := ih q p' hp (seen ++ [e]) t s' hs (pinv_step add ha lop hl p q e h1 seen s t h2 h)
    rwa [List.append_assoc, List.singleton_append] at this

theorem mem_loopIsects (E : Engine) (all : Bool) (hs : ∀ c f i, E.skipIntersection c f i = false) (c : Nat) (is : List Isect) (i : Isect)
    (hi : i ∈ is) : ∀ idx, ∃ idx', ∀ e ∈ visitIsect E all c idx' i, e ∈ loopIsects E all c idx is := by
  induction is with
  | nil => cases hi
  | cons j is ih =>
    intro idx
    rw [loopIsects, if_neg (by simp [hs])]
    rcases List.mem_cons.mp hi with rfl | hi
    · exact ⟨idx, fun e he => List.mem_append_left _ he⟩
    · obtain ⟨idx', h⟩ := ih hi (idx + 1)
      exact ⟨idx', fun e he => List.mem_append_right _ (h e he)⟩

theorem volume_visited (E : Engine) (all : Bool) (grid : List Cell) (hs : ∀ c, E.skipEntity c = false) (c : Cell) (hc : c ∈ grid) :
    (⟨.assembleUVVolume, c.id, 0, 0, 0⟩ : Event) ∈ assemble E all grid := by
  unfold assemble
  apply List.mem_append_left
  apply List.mem_append_right
  refine List.mem_flatMap.mpr ⟨c, hc, ?_⟩
  unfold visitCell
  rw [if_neg (by simp [hs])]
  simp

theorem face_visited (E : Engine) (all : Bool) (grid : List Cell) (hs : ∀ c, E.skipEntity c = false)
    (hs' : ∀ c f i, E.skipIntersection c f i = false) (hu : E.uvSkeleton = true) (c : Cell) (hc : c ∈ grid) (i : Isect)
    (hi : i ∈ c.isects) (hint : Interior all i) (hgt : c.id > i.outside) :
    ∃ idx, (⟨.assembleUVSkeleton, c.id, i.face, idx, i.outside⟩ : Event) ∈ assemble E all grid := by
  obtain ⟨idx, h⟩ := mem_loopIsects E all hs' c.id c.isects i hi 0
  refine ⟨idx, ?_⟩
  unfold assemble
  apply List.mem_append_left
  apply List.mem_append_right
  refine List.mem_flatMap.mpr ⟨c, hc, ?_⟩
  unfold visitCell
  rw [if_neg (by simp [hs])]
  apply List.mem_append_left
  apply List.mem_append_left
  apply List.mem_append_right
  rw [if_pos (by simp [hu])]
  apply h
  have hv : visitFace E c.id i = true := by unfold visitFace; simp [hgt]
  unfold visitIsect
  rcases classify_interior all i hint with hc | hc <;> rw [hc] <;> simp [hu, hv]

theorem uvOutside_isect (E : Engine) (all : Bool) (c idx : Nat) (i : Isect) (e : Event) (h : e ∈ visitIsect E all c idx i)
    (hk : e.kind = .onBindLFSUVOutside) : i.outside = e.outside ∧ Interior all i := by
  have hint : classify all i = .skeleton ∨ classify all i = .periodic → Interior all i := classify_skeleton all i
  unfold visitIsect at h
  split at h
  · rename_i hc
    refine ⟨?_, hint (.inl hc)⟩
    split at h
    · split at h
      · split at h <;> simp at h <;> aesop
      · simp at h
    · simp at h
  · rename_i hc
    refine ⟨?_, hint (.inr hc)⟩
    split at h
    · split at h
      · split at h <;> simp at h <;> aesop
      · simp at h
    · simp at h
  · split at h
    · split at h <;> simp at h <;> aesop
    · simp at h
  · split at h
    · split at h <;> simp at h <;> aesop
    · simp at h

theorem visitCell_bind (E : Engine) (all : Bool) (c : Cell) (e : Event) (h : e ∈ visitCell E all c)
    (hk : e.kind = .onBindLFSUVOutside) : e ∈ loopIsects E all c.id 0 c.isects := by
  unfold visitCell at h
  split at h
  · simp at h
  · simp only [List.mem_append] at h
    rcases h with ((h | h) | h) | h
    · simp only [List.mem_cons, List.not_mem_nil, or_false] at h
      rcases h with rfl | rfl | rfl | rfl | rfl <;> simp at hk
    · split at h
      · exact h
      · simp at h
    · split at h
      · split at h
        · simp only [List.mem_append, List.mem_singleton] at h
          rcases h with rfl | rfl <;> simp at hk
        · simp only [List.mem_append, List.mem_singleton, List.not_mem_nil, or_false] at h
          subst h; simp at hk
      · simp at h
    · simp only [List.mem_cons, List.not_mem_nil, or_false] at h
      rcases h with rfl | rfl <;> simp at hk

theorem mem_assemble_cell (E : Engine) (all : Bool) (grid : List Cell) (e : Event) (he : e ∈ assemble E all grid)
    (hk : e.kind ≠ .preAssembly ∧ e.kind ≠ .postAssembly) : ∃ c ∈ grid, e ∈ visitCell E all c := by
  unfold assemble at he
  simp only [List.mem_append, List.mem_singleton] at he
  rcases he with (rfl | he) | rfl
  · simp at hk
  · exact List.mem_flatMap.mp he
  · simp at hk

theorem covers_links (add : Nat → Nat → List (Nat × Nat) → List (Nat × Nat) → Option (List (Nat × Nat))) (ha : AddOk add)
    (lop : PLop) (hl : lop.Couples) (EP EJ : Engine) (all : Bool) (part grid : List Cell) (hpart : PartOf all part grid)
    (hs : ∀ c, EP.skipEntity c = false) (hs' : ∀ c f i, EP.skipIntersection c f i = false) (hu : EP.uvSkeleton = true)
    (hproto : (assemble EP all grid).foldlM Protocol.step .start = some .done) (s s' : PState)
    (hrun : (assemble EP all grid).foldlM (PState.step add lop) s = some s') :
    Covers (fun r c => decide ((r, c) ∈ s'.links)) (assemble EJ all part) := by
  have hinv := pinv_run add ha lop hl _ _ _ hproto [] s s' hrun ⟨by simp, by simp⟩
  have hvol : ∀ c ∈ grid, (c.id, c.id) ∈ s'.links := by
    intro c hc
    rcases hinv.1 ⟨.assembleUVVolume, c.id, 0, 0, 0⟩ (by simpa using volume_visited EP all grid hs c hc) rfl with h | h
    · exact h
    · cases h.1
  have hface : ∀ c ∈ grid, ∀ i ∈ c.isects, Interior all i → c.id > i.outside →
      (c.id, i.outside) ∈ s'.links ∧ (i.outside, c.id) ∈ s'.links := by
    intro c hc i hi hint hgt
    obtain ⟨idx, hm⟩ := face_visited EP all grid hs hs' hu c hc i hi hint hgt
    rcases hinv.2 _ (by simpa using hm) rfl with h | h
    · exact h
    · cases h.1
  intro e he
  constructor
  · intro hk
    obtain ⟨c, hc, h⟩ := mem_assemble_cell EJ all part e he (by simp [hk])
    rw [visitCell_cell EJ all c e h]
    simpa using hvol c (hpart c hc).1
  · intro hk
    obtain ⟨c, hc, h⟩ := mem_assemble_cell EJ all part e he (by simp [hk])
    obtain ⟨i, hi, idx, hv⟩ := loopIsects_mem EJ all _ _ _ _ (visitCell_bind EJ all c e h hk)
    obtain ⟨ho, hint⟩ := uvOutside_isect EJ all _ _ _ _ hv hk
    rw [visitCell_cell EJ all c e h, ← ho]
    obtain ⟨hcg, hn⟩ := hpart c hc
    obtain ⟨c', hc', hid, i', hi', hint', hout'⟩ := hn i hi hint
    simp only [decide_eq_true_eq]
    have hnn : (i.outside, i.outside) ∈ s'.links := by rw [← hid]; exact hvol c' hc'
    rcases Nat.lt_trichotomy c.id i.outside with hlt | heq | hgt
    · have := hface c' hc' i' hi' hint' (by rw [hid, hout']; exact hlt)
      rw [hid, hout'] at this
      exact ⟨this.2, this.1, hnn⟩
    · rw [← heq]; exact ⟨hvol c hcg, hvol c hcg, hvol c hcg⟩
    · have := hface c hcg i hi hint hgt
      exact ⟨this.1, this.2, hnn⟩

end Verif.FastDG
