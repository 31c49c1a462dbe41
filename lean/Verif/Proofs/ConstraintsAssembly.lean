import Verif.Spec.ConstraintsAssembly
import Verif.Proofs.Constraints
namespace Verif.ConsAsm
open GridAssembler Constraints Spec

variable {D F I : Type} [DecidableEq D]

/-- The local constraints are exactly empty rows for the DOFs in `S`. -/
def Pure (cl : CL D F) (S : D → Prop) : Prop := ∀ d r, (d, r) ∈ cl ↔ r = [] ∧ S d

omit [DecidableEq D] in
theorem Pure.congr {cl : CL D F} {S T : D → Prop} (h : Pure cl S) (hST : ∀ d, S d ↔ T d) : Pure cl T := by
  intro d r
  rw [h d r, hST]

omit [DecidableEq D] in
theorem pure_nil : Pure ([] : CL D F) fun _ => False := by intro d r; simp

theorem mem_assign_nil (cl : CL D F) (h : ∀ d r, (d, r) ∈ cl → r = []) (k d : D) (r : List (D × F)) :
    (d, r) ∈ assign k [] cl ↔ (d, r) ∈ cl ∨ (d = k ∧ r = []) := by
  induction cl with
  | nil => simp [assign]
  | cons q cl ih =>
    obtain ⟨k', v⟩ := q
    have hv : v = [] := h k' v (by simp)
    have ih' := ih fun d r hm => h d r (by simp [hm])
    unfold assign
    by_cases hk : k' = k
    · subst hk
      rw [if_pos rfl]
      simp only [List.mem_cons, Prod.mk.injEq, hv]
      constructor
      · rintro (h1 | h1)
        · exact Or.inl (Or.inl h1)
        · exact Or.inl (Or.inr h1)
      · rintro ((h1 | h1) | h1)
        · exact Or.inl h1
        · exact Or.inr h1
        · exact Or.inl h1
    · rw [if_neg hk]
      simp only [List.mem_cons, ih', or_assoc]

theorem pure_assign {cl : CL D F} {S : D → Prop} (h : Pure cl S) (k : D) : Pure (assign k [] cl) fun d => S d ∨ d = k := by
  intro d r
  rw [mem_assign_nil cl (fun d r hm => ((h d r).1 hm).1), h d r]
  constructor
  · rintro (⟨h1, h2⟩ | ⟨h1, h2⟩)
    · exact ⟨h1, Or.inl h2⟩
    · exact ⟨h2, Or.inr h1⟩
  · rintro ⟨h1, h2 | h2⟩
    · exact Or.inl ⟨h1, h2⟩
    · exact Or.inr ⟨h2, h1⟩

omit [DecidableEq D] in
theorem pure_foldl {α : Type} (f : CL D F → α → CL D F) (T : α → D → Prop) (l : List α)
    (hf : ∀ a ∈ l, ∀ cl S, Pure cl S → Pure (f cl a) fun d => S d ∨ T a d) {cl : CL D F} {S : D → Prop} (h : Pure cl S) :
    Pure (l.foldl f cl) fun d => S d ∨ ∃ a ∈ l, T a d := by
  induction l generalizing cl S with
  | nil => exact h.congr fun d => by simp
  | cons a l ih =>
    rw [List.foldl_cons]
    refine (ih (fun a' ha' => hf a' (by simp [ha'])) (hf a (by simp) cl S h)).congr fun d => ?_
    simp only [List.mem_cons, exists_eq_or_imp, or_assoc]

/-- A loop over all degrees of freedom. -/
theorem pure_loop (lfs : Bound D) (f : CL D F → Nat → LocalKey → CL D F) (C : Nat → LocalKey → Prop)
    (hf : ∀ i key cl S, lfs.keys[i]? = some key → Pure cl S → Pure (f cl i key) fun d => S d ∨ (C i key ∧ d = lfs.dof i))
    {cl : CL D F} {S : D → Prop} (h : Pure cl S) :
    Pure ((List.range lfs.keys.length).foldl (fun cl i =>
      match lfs.keys[i]? with
      | none => cl
      | some key => f cl i key) cl)
      fun d => S d ∨ ∃ i key, lfs.keys[i]? = some key ∧ C i key ∧ d = lfs.dof i := by
  refine (pure_foldl _ (fun i d => ∃ key, lfs.keys[i]? = some key ∧ C i key ∧ d = lfs.dof i) _ ?_ h).congr fun d => ?_
  · intro i _ cl S hS
    cases hk : lfs.keys[i]? with
    | none => exact hS.congr fun d => by simp
    | some key => exact (hf i key cl S hk hS).congr fun d => by simp
  · refine or_congr Iff.rfl ⟨?_, ?_⟩
    · rintro ⟨i, _, key, h1, h2, h3⟩
      exact ⟨i, key, h1, h2, h3⟩
    · rintro ⟨i, key, h1, h2, h3⟩
      refine ⟨i, List.mem_range.2 ?_, key, h1, h2, h3⟩
      exact (List.getElem?_eq_some_iff.1 h1).1

/-- What a method of a constraints class does. -/
def Adds (lfs : Bound D) (f : CL D F → CL D F) (C : Nat → LocalKey → Prop) : Prop :=
  ∀ cl S, Pure cl S → Pure (f cl) fun d => S d ∨ ∃ i key, lfs.keys[i]? = some key ∧ C i key ∧ d = lfs.dof i

theorem adds_face (e : Elem) (face : Nat) (lfs : Bound D) :
    Adds (F := F) lfs (constrainFace e face lfs) fun _ key => OnFace e face key := by
  intro cl S h
  refine pure_loop lfs (fun cl i key => if key.codim = 0 then cl
      else (e.faceSub face key.codim).foldl (fun cl s => if key.subEntity = s then assign (lfs.dof i) [] cl else cl) cl)
    (fun _ key => OnFace e face key) ?_ h
  intro i key cl S _ hS
  by_cases hc : key.codim = 0
  · rw [if_pos hc]
    exact hS.congr fun d => by simp [OnFace, hc]
  · rw [if_neg hc]
    refine (pure_foldl _ (fun s d => key.subEntity = s ∧ d = lfs.dof i) _ ?_ hS).congr fun d => ?_
    · intro s _ cl S hS
      by_cases hs : key.subEntity = s
      · rw [if_pos hs]
        exact (pure_assign hS _).congr fun d => by simp [hs]
      · rw [if_neg hs]
        exact hS.congr fun d => by simp [hs]
    · refine or_congr Iff.rfl ⟨?_, ?_⟩
      · rintro ⟨s, hs, rfl, h2⟩
        exact ⟨⟨hc, hs⟩, h2⟩
      · rintro ⟨⟨_, hs⟩, h2⟩
        exact ⟨_, hs, rfl, h2⟩

omit [DecidableEq D] in
theorem adds_id (lfs : Bound D) : Adds (F := F) lfs id fun _ _ => False := by
  intro cl S h
  exact h.congr fun d => by simp

theorem adds_all (lfs : Bound D) : Adds (F := F) lfs
    (fun cl => (List.range lfs.keys.length).foldl (fun cl i => assign (lfs.dof i) [] cl) cl) fun _ _ => True := by
  intro cl S h
  refine (pure_foldl _ (fun i d => d = lfs.dof i) _ ?_ h).congr fun d => ?_
  · intro i _ cl S hS
    exact pure_assign hS _
  · refine or_congr Iff.rfl ⟨?_, ?_⟩
    · rintro ⟨i, hi, h⟩
      exact ⟨i, lfs.keys[i]'(List.mem_range.1 hi), List.getElem?_eq_getElem _, trivial, h⟩
    · rintro ⟨i, key, hk, _, h⟩
      exact ⟨i, List.mem_range.2 (List.getElem?_eq_some_iff.1 hk).1, h⟩

omit [DecidableEq D] in
theorem adds_if {lfs : Bound D} (b : Prop) [Decidable b] {f g : CL D F → CL D F} {C E : Nat → LocalKey → Prop}
    (hf : Adds lfs f C) (hg : Adds lfs g E) :
    Adds lfs (fun cl => if b then f cl else g cl) fun i key => (b ∧ C i key) ∨ (¬ b ∧ E i key) := by
  intro cl S h
  dsimp only
  by_cases hb : b
  · rw [if_pos hb]
    exact (hf cl S h).congr fun d => by simp [hb]
  · rw [if_neg hb]
    exact (hg cl S h).congr fun d => by simp [hb]

omit [DecidableEq D] in
theorem Adds.congr {lfs : Bound D} {f : CL D F → CL D F} {C E : Nat → LocalKey → Prop} (h : Adds lfs f C)
    (hCE : ∀ i key, lfs.keys[i]? = some key → (C i key ↔ E i key)) : Adds lfs f E := by
  intro cl S hS
  refine (h cl S hS).congr fun d => or_congr Iff.rfl ⟨?_, ?_⟩
  · rintro ⟨i, key, h1, h2, h3⟩
    exact ⟨i, key, h1, (hCE i key h1).1 h2, h3⟩
  · rintro ⟨i, key, h1, h2, h3⟩
    exact ⟨i, key, h1, (hCE i key h1).2 h2, h3⟩

/-- What the three kinds of methods of a class mark. -/
def volumeMarks (e : Elem) (key : LocalKey) : Class → Prop
  | .nonoverlapping offsets ghosts => e.partition ≠ .interior ∧
      ghosts.getD (offsets.getD (e.sub key.codim key.subEntity).1 0 + (e.sub key.codim key.subEntity).2) false = true
  | .p0Ghost => e.partition = .ghost
  | .interiorNode interior => interior.getD (e.sub key.codim key.subEntity).2 false = true
  | _ => False

def boundaryMarks (p : Param) (e : Elem) (i : CIsect) (n : Nat) (key : LocalKey) : Class → Prop
  | .conforming | .overlapping | .nonoverlapping _ _ => p.isDirichlet e i = true ∧ OnFace e i.indexInInside key
  | .rt0 => p.isNeumann e i = true ∧ i.indexInInside = n
  | _ => False

def processorMarks (e : Elem) (i : CIsect) (key : LocalKey) : Class → Prop
  | .overlapping => OnFace e i.indexInInside key
  | .p0 => True
  | _ => False

/-- The three calls, with the flags. -/
def volumeCall (c : Cons D F) (p : Param) (e : Elem) (lfs : Bound D) (cl : CL D F) : CL D F :=
  if c.doVolume then if lfs.keys.length = 0 then cl else c.volume p e lfs cl else cl

def boundaryCall (c : Cons D F) (p : Param) (e : Elem) (i : CIsect) (lfs : Bound D) (cl : CL D F) : CL D F :=
  if c.doBoundary then if lfs.keys.length = 0 then cl else c.boundary p e i lfs cl else cl

def processorCall (c : Cons D F) (e : Elem) (i : CIsect) (lfs : Bound D) (cl : CL D F) : CL D F :=
  if c.doProcessor then if lfs.keys.length = 0 then cl else c.processor e i lfs cl else cl

omit [DecidableEq D] in
theorem adds_guard {lfs : Bound D} {f : CL D F → CL D F} {C : Nat → LocalKey → Prop} (h : Adds lfs f C) :
    Adds lfs (fun cl => if lfs.keys.length = 0 then cl else f cl) C := by
  intro cl S hS
  dsimp only
  by_cases h0 : lfs.keys.length = 0
  · rw [if_pos h0]
    have : lfs.keys = [] := List.length_eq_zero_iff.1 h0
    exact hS.congr fun d => by simp [this]
  · rw [if_neg h0]
    exact h cl S hS

theorem volume_adds (c : Class) (p : Param) (e : Elem) (lfs : Bound D) :
    Adds lfs (volumeCall (c.cons (F := F)) p e lfs) fun _ key => volumeMarks e key c := by
  cases c with
  | none => exact adds_id lfs
  | conforming => exact adds_id lfs
  | overlapping => exact adds_id lfs
  | p0 => exact adds_id lfs
  | rt0 => exact adds_id lfs
  | nonoverlapping offsets ghosts =>
    refine adds_guard (f := (Class.cons (.nonoverlapping offsets ghosts)).volume p e lfs) ?_
    have h1 : Adds (F := F) lfs (fun cl => (List.range lfs.keys.length).foldl (fun cl i =>
        match lfs.keys[i]? with
        | none => cl
        | some key =>
          let ent := e.sub key.codim key.subEntity
          if ghosts.getD (offsets.getD ent.1 0 + ent.2) false then assign (lfs.dof i) [] cl else cl) cl)
        fun _ key => ghosts.getD (offsets.getD (e.sub key.codim key.subEntity).1 0 + (e.sub key.codim key.subEntity).2) false
          = true := by
      intro cl S h
      refine pure_loop lfs (fun cl i key => let ent := e.sub key.codim key.subEntity
          if ghosts.getD (offsets.getD ent.1 0 + ent.2) false then assign (lfs.dof i) [] cl else cl) _ ?_ h
      intro i key cl S _ hS
      dsimp only
      split
      · rename_i hg
        exact (pure_assign hS _).congr fun d => by simp only [hg, true_and]
      · rename_i hg
        exact hS.congr fun d => by simp only [hg, Bool.false_eq_true, false_and, or_false]
    have h2 := adds_if (e.partition = .interior) (adds_id (F := F) lfs) h1
    refine Adds.congr h2 fun i key _ => ?_
    simp [volumeMarks]
  | p0Ghost =>
    refine adds_guard (f := (Class.cons .p0Ghost).volume p e lfs) ?_
    have h2 := adds_if (e.partition = .interior) (adds_id (F := F) lfs)
      (adds_if (e.partition = .ghost) (adds_all (F := F) lfs) (adds_id lfs))
    refine Adds.congr h2 fun i key _ => ?_
    simp only [volumeMarks, and_false, false_or, and_true, or_false]
    constructor
    · rintro ⟨_, h⟩; exact h
    · intro h; exact ⟨by simp [h], h⟩
  | interiorNode interior =>
    refine adds_guard (f := (Class.cons (.interiorNode interior)).volume p e lfs) ?_
    intro cl S h
    refine pure_loop lfs (fun cl i key =>
      if interior.getD (e.sub key.codim key.subEntity).2 false then assign (lfs.dof i) [] cl else cl) _ ?_ h
    intro i key cl S _ hS
    dsimp only [volumeMarks]
    split
    · rename_i hg
      exact (pure_assign hS _).congr fun d => by simp only [hg, true_and]
    · rename_i hg
      exact hS.congr fun d => by simp only [hg, Bool.false_eq_true, false_and, or_false]

theorem boundary_conforming (p : Param) (e : Elem) (i : CIsect) (lfs : Bound D) :
    Adds lfs (boundaryCall (conformingDirichlet (F := F)) p e i lfs)
      fun _ key => p.isDirichlet e i = true ∧ OnFace e i.indexInInside key := by
  refine adds_guard (f := (conformingDirichlet (F := F)).boundary p e i lfs) ?_
  have h2 := adds_if ((!p.isDirichlet e i) = true) (adds_id (F := F) lfs) (adds_face e i.indexInInside lfs)
  refine Adds.congr h2 fun i key _ => ?_
  simp

theorem boundary_adds (c : Class) (p : Param) (e : Elem) (i : CIsect) (lfs : Bound D)
    (hrt : c = .rt0 → lfs.keys ≠ [] → i.indexInInside < lfs.keys.length) :
    Adds lfs (boundaryCall (c.cons (F := F)) p e i lfs) fun n key => boundaryMarks p e i n key c := by
  cases c with
  | none => exact adds_id lfs
  | conforming => exact boundary_conforming p e i lfs
  | overlapping => exact boundary_conforming p e i lfs
  | nonoverlapping offsets ghosts => exact boundary_conforming p e i lfs
  | p0 => exact adds_id lfs
  | p0Ghost => exact adds_id lfs
  | interiorNode _ => exact adds_id lfs
  | rt0 =>
    intro cl S hS
    by_cases h0 : lfs.keys = []
    · have : boundaryCall (Class.cons (F := F) .rt0) p e i lfs cl = cl := by
        simp [boundaryCall, Class.cons, rt0, h0]
      rw [this]
      exact hS.congr fun d => by simp [h0]
    · have hlt := hrt rfl h0
      have : boundaryCall (Class.cons (F := F) .rt0) p e i lfs cl =
          if p.isNeumann e i then assign (lfs.dof i.indexInInside) [] cl else cl := by
        simp [boundaryCall, Class.cons, rt0, h0]
      rw [this]
      split
      · rename_i hn
        refine (pure_assign hS _).congr fun d => or_congr Iff.rfl ⟨?_, ?_⟩
        · intro hd
          exact ⟨i.indexInInside, _, List.getElem?_eq_getElem hlt, ⟨hn, rfl⟩, hd⟩
        · rintro ⟨n, key, _, ⟨_, h1⟩, h2⟩
          rw [h2, h1]
      · rename_i hn
        exact hS.congr fun d => by simp [boundaryMarks, hn]

theorem processor_adds (c : Class) (e : Elem) (i : CIsect) (lfs : Bound D) :
    Adds lfs (processorCall (c.cons (F := F)) e i lfs) fun _ key => processorMarks e i key c := by
  cases c with
  | none => exact adds_id lfs
  | conforming => exact adds_id lfs
  | nonoverlapping offsets ghosts => exact adds_id lfs
  | p0Ghost => exact adds_id lfs
  | rt0 => exact adds_id lfs
  | interiorNode _ => exact adds_id lfs
  | overlapping => exact adds_guard (f := (Class.cons .overlapping).processor e i lfs) (adds_face e i.indexInInside lfs)
  | p0 => exact adds_guard (f := (Class.cons .p0).processor e i lfs) (adds_all lfs)

/-! ### The loops over leaves, intersections and elements -/

theorem pairs_snd {P L : Type} : ∀ (p : Tree P) (t : Tree L) (ps : List (P × L)), pairs p t = some ps →
    ps.map Prod.snd = t.leaves := by
  intro p t
  induction p, t using pairs.induct (motive_2 := fun ps ts => ∀ r : List (P × L), pairsList ps ts = some r →
    r.map Prod.snd = Tree.leavesList ts) with
  | case1 p t =>
    intro ps h
    rw [pairs] at h
    cases h
    simp
  | case2 => intro ps h; simp [pairs] at h
  | case3 ps ts ih =>
    intro r h
    rw [pairs] at h
    rw [Tree.leaves]
    exact ih r h
  | case4 =>
    rename_i r h
    simp only [pairsList, Option.some.injEq] at h
    subst h
    rfl
  | case5 p ps t ts ih1 ih2 =>
    rename_i r h
    rw [pairsList] at h
    simp only [Option.bind_eq_bind, Option.pure_def, Option.bind_eq_some_iff, Option.some.injEq] at h
    obtain ⟨a, ha, b, hb, rfl⟩ := h
    rw [List.map_append, ih1 a ha, ih2 b hb, Tree.leavesList]
  | case6 a b h1 h2 =>
    rename_i r h
    rw [pairsList] at h
    · simp at h
    · exact h1
    · exact h2

/-- What one element marks. -/
def MarksOf (ps : List (Param × Leaf D F)) (e : Elem) (M : Param → Leaf D F → Nat → LocalKey → Prop) (d : D) : Prop :=
  ∃ pl ∈ ps, ∃ n key, (pl.2.keys e)[n]? = some key ∧ M pl.1 pl.2 n key ∧ d = pl.2.dof e n

section Loops
variable (cls : Leaf D F → Class) (ps : List (Param × Leaf D F)) (ls : List (Leaf D F)) (hls : ps.map Prod.snd = ls)
  (hcls : ∀ l ∈ ls, l.cons = (cls l).cons)

include hls hcls

theorem cons_of_mem {pl : Param × Leaf D F} (h : pl ∈ ps) : pl.2.cons = (cls pl.2).cons :=
  hcls _ (by rw [← hls]; exact List.mem_map_of_mem h)

theorem callVolume_pure (e : Elem) {cl : CL D F} {S : D → Prop} (h : Pure cl S) :
    Pure (callVolume ps e cl) fun d => S d ∨ MarksOf ps e (fun _ l _ key => volumeMarks e key (cls l)) d := by
  refine pure_foldl _ (fun pl d => ∃ n key, (pl.2.keys e)[n]? = some key ∧ volumeMarks e key (cls pl.2) ∧ d = pl.2.dof e n) ps
    ?_ h
  intro pl hpl cl S hS
  have := volume_adds (F := F) (cls pl.2) pl.1 e (pl.2.bind e) cl S hS
  rw [← cons_of_mem cls ps ls hls hcls hpl] at this
  exact this

theorem callBoundary_pure (e : Elem) (i : CIsect)
    (hrt : ∀ l ∈ ls, cls l = .rt0 → l.keys e ≠ [] → i.indexInInside < (l.keys e).length)
    {cl : CL D F} {S : D → Prop} (h : Pure cl S) :
    Pure (callBoundary ps e i cl) fun d => S d ∨ MarksOf ps e (fun p l n key => boundaryMarks p e i n key (cls l)) d := by
  refine pure_foldl _ (fun pl d => ∃ n key, (pl.2.keys e)[n]? = some key ∧ boundaryMarks pl.1 e i n key (cls pl.2) ∧
    d = pl.2.dof e n) ps ?_ h
  intro pl hpl cl S hS
  have hl : pl.2 ∈ ls := by rw [← hls]; exact List.mem_map_of_mem hpl
  have := boundary_adds (F := F) (cls pl.2) pl.1 e i (pl.2.bind e) (hrt pl.2 hl) cl S hS
  rw [← cons_of_mem cls ps ls hls hcls hpl] at this
  exact this

theorem callProcessor_pure (e : Elem) (i : CIsect) {cl : CL D F} {S : D → Prop} (h : Pure cl S) :
    Pure (callProcessor ls e i cl) fun d => S d ∨ MarksOf ps e (fun _ l _ key => processorMarks e i key (cls l)) d := by
  refine (pure_foldl _ (fun l d => ∃ n key, (l.keys e)[n]? = some key ∧ processorMarks e i key (cls l) ∧
    d = l.dof e n) ls ?_ h).congr fun d => or_congr Iff.rfl ?_
  · intro l hl cl S hS
    have := processor_adds (F := F) (cls l) e i (l.bind e) cl S hS
    rw [← hcls l hl] at this
    exact this
  · rw [← hls]
    simp only [List.mem_map, MarksOf]
    constructor
    · rintro ⟨l, ⟨pl, hpl, rfl⟩, h⟩
      exact ⟨pl, hpl, h⟩
    · rintro ⟨pl, hpl, h⟩
      exact ⟨pl.2, ⟨pl, hpl, rfl⟩, h⟩

omit hls in
theorem callSkeleton_none (e : Elem) (i : CIsect) (f : Elem) (cl cl' : CL D F) : callSkeleton ls e i f cl cl' = (cl, cl') := by
  unfold callSkeleton
  have h : ∀ l ∈ ls, l.cons.doSkeleton = false := by
    intro l hl
    rw [hcls l hl]
    cases cls l <;> rfl
  clear hcls
  induction ls with
  | nil => rfl
  | cons l ls ih =>
    rw [List.foldl_cons, h l (by simp)]
    exact ih fun l hl => h l (by simp [hl])

/-- What one intersection marks. -/
def isectMarks (ap : Bool) (p : Param) (e : Elem) (i : CIsect) (n : Nat) (key : LocalKey) (c : Class) : Prop :=
  (classify ap i.toIsect = .boundary ∧ boundaryMarks p e i n key c) ∨
    (classify ap i.toIsect = .processor ∧ processorMarks e i key c)

theorem visitIsect_pure (ap : Bool) (element : Nat → Elem) (index : D → I) (e : Elem) (i : CIsect)
    (hrt : ∀ l ∈ ls, cls l = .rt0 → l.keys e ≠ [] → i.indexInInside < (l.keys e).length)
    {cl : CL D F} {S : D → Prop} (h : Pure cl S) :
    ∃ cl', visitIsect ap element index ps ls e (cl, []) i = (cl', []) ∧
      Pure cl' fun d => S d ∨ MarksOf ps e (fun p l n key => isectMarks ap p e i n key (cls l)) d := by
  unfold visitIsect
  cases hc : classify ap i.toIsect with
  | boundary =>
    refine ⟨_, rfl, (callBoundary_pure cls ps ls hls hcls e i hrt h).congr fun d => ?_⟩
    simp [MarksOf, isectMarks, hc]
  | processor =>
    refine ⟨_, rfl, (callProcessor_pure cls ps ls hls hcls e i h).congr fun d => ?_⟩
    simp [MarksOf, isectMarks, hc]
  | skeleton =>
    refine ⟨cl, ?_, h.congr fun d => by simp [MarksOf, isectMarks, hc]⟩
    simp [callSkeleton_none cls ls hcls]
  | periodic =>
    refine ⟨cl, ?_, h.congr fun d => by simp [MarksOf, isectMarks, hc]⟩
    simp [callSkeleton_none cls ls hcls]

theorem visitIsects_pure (ap : Bool) (element : Nat → Elem) (index : D → I) (e : Elem) (is : List CIsect)
    (hrt : ∀ i ∈ is, ∀ l ∈ ls, cls l = .rt0 → l.keys e ≠ [] → i.indexInInside < (l.keys e).length)
    {cl : CL D F} {S : D → Prop} (h : Pure cl S) :
    ∃ cl', is.foldl (visitIsect ap element index ps ls e) (cl, []) = (cl', []) ∧
      Pure cl' fun d => S d ∨ ∃ i ∈ is, MarksOf ps e (fun p l n key => isectMarks ap p e i n key (cls l)) d := by
  induction is generalizing cl S with
  | nil => exact ⟨cl, rfl, h.congr fun d => by simp⟩
  | cons i is ih =>
    obtain ⟨cl1, h1, h2⟩ := visitIsect_pure (I := I) cls ps ls hls hcls ap element index e i (hrt i (by simp)) h
    obtain ⟨cl2, h3, h4⟩ := ih (fun i hi => hrt i (by simp [hi])) h2
    refine ⟨cl2, by rw [List.foldl_cons, h1, h3], h4.congr fun d => ?_⟩
    simp only [List.mem_cons, exists_eq_or_imp, or_assoc]

omit [DecidableEq D] hls hcls in
theorem marks_iff (ap : Bool) (p : Param) (e : Elem) (n : Nat) (key : LocalKey) (c : Class) :
    c.Marks ap p e n key ↔ volumeMarks e key c ∨ ∃ i ∈ e.isects, isectMarks ap p e i n key c := by
  cases c <;>
    simp [Class.Marks, volumeMarks, isectMarks, boundaryMarks, processorMarks, OnDirichletFace, OnProcessorFace, and_or_left,
      exists_or, or_comm]

theorem visitElement_mem (ap : Bool) (element : Nat → Elem) (index : D → I) (e : Elem)
    (hrt : ∀ i ∈ e.isects, ∀ l ∈ ls, cls l = .rt0 → l.keys e ≠ [] → i.indexInInside < (l.keys e).length)
    (d : D) (r : List (D × F)) :
    (∃ c ∈ visitElement ap element index ps ls e, c.index = index ∧ (d, r) ∈ c.rows) ↔
      r = [] ∧ MarksOf ps e (fun p l n key => (cls l).Marks ap p e n key) d := by
  obtain ⟨cl, h1, h2⟩ := visitIsects_pure (I := I) cls ps ls hls hcls ap element index e e.isects hrt
    (callVolume_pure cls ps ls hls hcls e pure_nil)
  unfold visitElement
  rw [h1]
  have h3 := h2 d r
  dsimp only at h3
  have h4 : ((False ∨ MarksOf ps e (fun _ l _ key => volumeMarks e key (cls l)) d) ∨
      ∃ i ∈ e.isects, MarksOf ps e (fun p l n key => isectMarks ap p e i n key (cls l)) d) ↔
      MarksOf ps e (fun p l n key => (cls l).Marks ap p e n key) d := by
    simp only [false_or, MarksOf, marks_iff]
    constructor
    · rintro (⟨pl, h1, n, key, h2, h3, h4⟩ | ⟨i, hi, pl, h1, n, key, h2, h3, h4⟩)
      · exact ⟨pl, h1, n, key, h2, Or.inl h3, h4⟩
      · exact ⟨pl, h1, n, key, h2, Or.inr ⟨i, hi, h3⟩, h4⟩
    · rintro ⟨pl, h1, n, key, h2, h3 | ⟨i, hi, h3⟩, h4⟩
      · exact Or.inl ⟨pl, h1, n, key, h2, h3, h4⟩
      · exact Or.inr ⟨i, hi, pl, h1, n, key, h2, h3, h4⟩
  rw [h4] at h3
  rw [← h3]
  cases cl with
  | nil => simp
  | cons a cl => simp

omit [DecidableEq D] hls hcls in
theorem visitElement_index (ap : Bool) (element : Nat → Elem) (index : D → I) (e : Elem) :
    ∀ c ∈ visitElement ap element index ps ls e, c.index = index := by
  have key : ∀ (is : List CIsect) (s : CL D F × List (Contribution D I F)), (∀ c ∈ s.2, c.index = index) →
      ∀ c ∈ (is.foldl (visitIsect ap element index ps ls e) s).2, c.index = index := by
    intro is
    induction is with
    | nil => intro s h; exact h
    | cons i is ih =>
      intro s h
      rw [List.foldl_cons]
      refine ih _ ?_
      unfold visitIsect
      split
      · split
        · dsimp only
          split
          · exact h
          · intro c hc
            rcases List.mem_append.1 hc with hc | hc
            · exact h c hc
            · simp at hc; rw [hc]
        · exact h
      · split
        · dsimp only
          split
          · exact h
          · intro c hc
            rcases List.mem_append.1 hc with hc | hc
            · exact h c hc
            · simp at hc; rw [hc]
        · exact h
      · exact h
      · exact h
  intro c hc
  unfold visitElement at hc
  rcases List.mem_append.1 hc with hc | hc
  · exact key e.isects _ (by simp) c hc
  · split at hc
    · simp at hc
    · simp at hc; rw [hc]

theorem elements_mem (ap : Bool) (elements : List Elem) (element : Nat → Elem) (index : D → I)
    (hrt : ∀ e ∈ elements, ∀ i ∈ e.isects, ∀ l ∈ ls, cls l = .rt0 → l.keys e ≠ [] → i.indexInInside < (l.keys e).length)
    (k : I) (r : List (D × F)) :
    (∃ c ∈ elements.flatMap (visitElement ap element index ps ls), ∃ d, (d, r) ∈ c.rows ∧ c.index d = k) ↔
      r = [] ∧ ∃ e ∈ elements, ∃ d, MarksOf ps e (fun p l n key => (cls l).Marks ap p e n key) d ∧ index d = k := by
  simp only [List.mem_flatMap]
  constructor
  · rintro ⟨c, ⟨e, he, hc⟩, d, hd, hk⟩
    have hi := visitElement_index ps ls ap element index e c hc
    have := (visitElement_mem cls ps ls hls hcls ap element index e (hrt e he) d r).1 ⟨c, hc, hi, hd⟩
    exact ⟨this.1, e, he, d, this.2, by rw [← hk, hi]⟩
  · rintro ⟨hr, e, he, d, hd, hk⟩
    obtain ⟨c, hc, hi, hd⟩ := (visitElement_mem cls ps ls hls hcls ap element index e (hrt e he) d r).2 ⟨hr, hd⟩
    exact ⟨c, ⟨e, he, hc⟩, d, hd, by rw [hi, hk]⟩

end Loops

/-! ### Flags -/

/-- A loop that only resets flags. -/
theorem foldl_reset {α : Type} (f : List Bool → α → List Bool) (T : α → Nat → Prop) (l : List α)
    (hl : ∀ a ∈ l, ∀ v, (f v a).length = v.length)
    (hf : ∀ a ∈ l, ∀ v k, k < v.length → ((f v a).getD k false = true ↔ v.getD k false = true ∧ ¬ T a k)) (v : List Bool) :
    (l.foldl f v).length = v.length ∧
      ∀ k < v.length, (l.foldl f v).getD k false = true ↔ v.getD k false = true ∧ ¬ ∃ a ∈ l, T a k := by
  induction l generalizing v with
  | nil => simp
  | cons a l ih =>
    rw [List.foldl_cons]
    obtain ⟨h1, h2⟩ := ih (fun a ha => hl a (by simp [ha])) (fun a ha => hf a (by simp [ha])) (f v a)
    have hla := hl a (by simp) v
    refine ⟨by rw [h1, hla], fun k hk => ?_⟩
    rw [h2 k (by rw [hla]; exact hk), hf a (by simp) v k hk]
    simp only [List.mem_cons, exists_eq_or_imp, not_or, and_assoc]

theorem set_reset (v : List Bool) (j k : Nat) (hk : k < v.length) :
    (v.set j false).getD k false = true ↔ v.getD k false = true ∧ ¬ j = k := by
  simp only [List.getD_eq_getElem?_getD, List.getElem?_set]
  by_cases h : j = k
  · subst h
    simp [hk]
  · simp [h]

theorem updateInteriorNodes_iff (dim n : Nat) (elements : List Elem) :
    (updateInteriorNodes dim n elements).length = n ∧ ∀ k < n, (updateInteriorNodes dim n elements).getD k false = true ↔
      ¬ ∃ e ∈ elements, ∃ i ∈ e.isects, i.boundary = true ∧ ∃ s ∈ e.faceSub i.indexInInside dim, (e.sub dim s).2 = k := by
  unfold updateInteriorNodes
  have hin : ∀ (e : Elem) (i : CIsect) (v : List Bool), let f := (fun (v : List Bool) s => v.set (e.sub dim s).2 false)
      ((e.faceSub i.indexInInside dim).foldl f v).length = v.length ∧ ∀ k < v.length,
      ((e.faceSub i.indexInInside dim).foldl f v).getD k false = true ↔ v.getD k false = true ∧
        ¬ ∃ s ∈ e.faceSub i.indexInInside dim, (e.sub dim s).2 = k :=
    fun e i v => foldl_reset _ (fun s k => (e.sub dim s).2 = k) _ (by simp) (fun s _ v k hk => set_reset v _ k hk) v
  have hel : ∀ (e : Elem) (v : List Bool), let f := (fun (v : List Bool) (i : CIsect) =>
      if i.boundary then (e.faceSub i.indexInInside dim).foldl (fun v s => v.set (e.sub dim s).2 false) v else v)
      (e.isects.foldl f v).length = v.length ∧ ∀ k < v.length, (e.isects.foldl f v).getD k false = true ↔
        v.getD k false = true ∧
        ¬ ∃ i ∈ e.isects, i.boundary = true ∧ ∃ s ∈ e.faceSub i.indexInInside dim, (e.sub dim s).2 = k := by
    intro e v
    refine foldl_reset _ (fun (i : CIsect) k => i.boundary = true ∧ ∃ s ∈ e.faceSub i.indexInInside dim, (e.sub dim s).2 = k) _ ?_ ?_ v
    · intro i _ v
      split
      · exact (hin e i v).1
      · rfl
    · intro i _ v k hk
      split
      · rename_i hb
        rw [(hin e i v).2 k hk]
        simp only [hb, true_and]
      · rename_i hb
        simp only [hb, Bool.false_eq_true, false_and, not_false_eq_true, and_true]
  obtain ⟨h1, h2⟩ := foldl_reset _ (fun e k => ∃ i ∈ e.isects, i.boundary = true ∧
    ∃ s ∈ e.faceSub i.indexInInside dim, (e.sub dim s).2 = k) elements (fun e _ v => (hel e v).1)
    (fun e _ v k hk => (hel e v).2 k hk) (List.replicate n true)
  rw [List.length_replicate] at h1 h2
  refine ⟨h1, fun k hk => ?_⟩
  rw [h2 k hk]
  simp [hk]

theorem computeGhosts_iff (dim : Nat) (contains : Nat → Bool) (offsets : List Nat) (elements : List Elem) :
    (computeGhosts dim contains offsets elements).length = offsets.getLastD 0 ∧
    ∀ k < offsets.getLastD 0, (computeGhosts dim contains offsets elements).getD k false = true ↔
      ¬ ∃ e ∈ elements, e.partition = .interior ∧ ∃ codim ≤ dim, contains codim = true ∧
        ∃ s < e.numSub codim, offsets.getD (e.sub codim s).1 0 + (e.sub codim s).2 = k := by
  unfold computeGhosts
  have hin : ∀ (e : Elem) (codim : Nat) (v : List Bool),
      let f := (fun (v : List Bool) s => v.set (offsets.getD (e.sub codim s).1 0 + (e.sub codim s).2) false)
      ((List.range (e.numSub codim)).foldl f v).length = v.length ∧ ∀ k < v.length,
      ((List.range (e.numSub codim)).foldl f v).getD k false = true ↔ v.getD k false = true ∧
        ¬ ∃ s ∈ List.range (e.numSub codim), offsets.getD (e.sub codim s).1 0 + (e.sub codim s).2 = k :=
    fun e codim v => foldl_reset _ (fun s k => offsets.getD (e.sub codim s).1 0 + (e.sub codim s).2 = k) _ (by simp)
      (fun s _ v k hk => set_reset v _ k hk) v
  have hel : ∀ (e : Elem) (v : List Bool), let f := (fun (v : List Bool) (codim : Nat) =>
      if contains codim then
        (List.range (e.numSub codim)).foldl (fun v s =>
          v.set (offsets.getD (e.sub codim s).1 0 + (e.sub codim s).2) false) v
      else v)
      ((List.range (dim + 1)).foldl f v).length = v.length ∧ ∀ k < v.length, ((List.range (dim + 1)).foldl f v).getD k false = true ↔
        v.getD k false = true ∧
        ¬ ∃ codim ∈ List.range (dim + 1), contains codim = true ∧
          ∃ s ∈ List.range (e.numSub codim), offsets.getD (e.sub codim s).1 0 + (e.sub codim s).2 = k := by
    intro e v
    refine foldl_reset _ (fun codim k => contains codim = true ∧
          ∃ s ∈ List.range (e.numSub codim), offsets.getD (e.sub codim s).1 0 + (e.sub codim s).2 = k) _ ?_ ?_ v
    · intro i _ v
      split
      · exact (hin e i v).1
      · rfl
    · intro i _ v k hk
      split
      · rename_i hb
        rw [(hin e i v).2 k hk]
        simp only [hb, true_and]
      · rename_i hb
        simp only [hb, Bool.false_eq_true, false_and, not_false_eq_true, and_true]
  obtain ⟨h1, h2⟩ := foldl_reset _ (fun e k => ∃ codim ∈ List.range (dim + 1), contains codim = true ∧
          ∃ s ∈ List.range (e.numSub codim), offsets.getD (e.sub codim s).1 0 + (e.sub codim s).2 = k)
    (elements.filter fun e => e.partition = .interior) (fun e _ v => (hel e v).1)
    (fun e _ v k hk => (hel e v).2 k hk) (List.replicate (offsets.getLastD 0) true)
  rw [List.length_replicate] at h1 h2
  refine ⟨h1, fun k hk => ?_⟩
  rw [h2 k hk]
  have : (List.replicate (offsets.getLastD 0) true).getD k false = true := by
    rw [List.getD_eq_getElem?_getD, List.getElem?_replicate, if_pos hk]; rfl
  simp only [this, true_and, List.mem_filter, decide_eq_true_eq, List.mem_range, Nat.lt_succ_iff, and_assoc]

/-! ### Offsets -/

theorem partialSum_length (s : Nat) (l : List Nat) : (partialSum s l).length = l.length := by
  induction l generalizing s with
  | nil => rfl
  | cons a l ih => simp [partialSum, ih]

theorem partialSum_getElem? (s : Nat) (l : List Nat) (k : Nat) (hk : k < l.length) :
    (partialSum s l)[k]? = some (s + (l.take (k + 1)).sum) := by
  induction l generalizing s k with
  | nil => simp at hk
  | cons a l ih =>
    cases k with
    | zero => simp [partialSum]
    | succ k =>
      simp only [partialSum, List.getElem?_cons_succ, List.take_succ_cons, List.sum_cons]
      rw [ih (s + a) k (by simpa using hk), Nat.add_assoc]

theorem ghostOffsets_getD (codimOf : List Nat) (contains : Nat → Bool) (size : Nat → Nat) (gt : Nat) (h : gt ≤ codimOf.length) :
    (ghostOffsets codimOf contains size).getD gt 0 =
      (((List.range codimOf.length).map fun gt => if contains (codimOf.getD gt 0) then size gt else 0).take gt).sum := by
  unfold ghostOffsets
  rw [List.getD_eq_getElem?_getD, partialSum_getElem? _ _ _ (by simpa using Nat.lt_succ_of_le h)]
  simp

theorem ghostOffsets_last (codimOf : List Nat) (contains : Nat → Bool) (size : Nat → Nat) :
    (ghostOffsets codimOf contains size).getLastD 0 = (ghostOffsets codimOf contains size).getD codimOf.length 0 := by
  have hl : (ghostOffsets codimOf contains size).length = codimOf.length + 1 := by
    simp [ghostOffsets, partialSum_length]
  rw [List.getLastD_eq_getLast?, List.getLast?_eq_getElem?, hl, List.getD_eq_getElem?_getD]
  rfl

theorem take_sum_mono (l : List Nat) {a b : Nat} (h : a ≤ b) : (l.take a).sum ≤ (l.take b).sum := by
  have h1 := congrArg List.sum (List.take_append_drop a (l.take b))
  rw [List.sum_append, List.take_take, Nat.min_eq_left h] at h1
  omega

theorem ghostOffsets_step (codimOf : List Nat) (contains : Nat → Bool) (size : Nat → Nat) (gt idx : Nat)
    (h : gt < codimOf.length) (hc : contains (codimOf.getD gt 0) = true) (hi : idx < size gt) :
    (ghostOffsets codimOf contains size).getD gt 0 + idx < (ghostOffsets codimOf contains size).getD (gt + 1) 0 := by
  rw [ghostOffsets_getD _ _ _ _ (Nat.le_of_lt h), ghostOffsets_getD _ _ _ _ h, List.take_add_one, List.sum_append]
  have : ((List.range codimOf.length).map fun gt => if contains (codimOf.getD gt 0) then size gt else 0)[gt]?.toList =
      [size gt] := by
    rw [List.getElem?_map, List.getElem?_range h]
    simp only [Option.map_some, hc, if_true, Option.toList_some]
  rw [this]
  simp only [List.sum_cons, List.sum_nil, Nat.add_zero]
  omega

theorem ghostOffsets_mono (codimOf : List Nat) (contains : Nat → Bool) (size : Nat → Nat) {a b : Nat} (h : a ≤ b)
    (hb : b ≤ codimOf.length) :
    (ghostOffsets codimOf contains size).getD a 0 ≤ (ghostOffsets codimOf contains size).getD b 0 := by
  rw [ghostOffsets_getD _ _ _ _ (Nat.le_trans h hb), ghostOffsets_getD _ _ _ _ hb]
  exact take_sum_mono _ h

theorem ghostOffsets_inj (codimOf : List Nat) (contains : Nat → Bool) (size : Nat → Nat) (a b : Nat × Nat)
    (ha : a.1 < codimOf.length) (hca : contains (codimOf.getD a.1 0) = true) (hia : a.2 < size a.1)
    (hb : b.1 < codimOf.length) (hcb : contains (codimOf.getD b.1 0) = true) (hib : b.2 < size b.1)
    (h : (ghostOffsets codimOf contains size).getD a.1 0 + a.2 = (ghostOffsets codimOf contains size).getD b.1 0 + b.2) :
    a = b := by
  have h1 := ghostOffsets_step codimOf contains size a.1 a.2 ha hca hia
  have h2 := ghostOffsets_step codimOf contains size b.1 b.2 hb hcb hib
  rcases Nat.lt_trichotomy a.1 b.1 with hlt | heq | hlt
  · have := ghostOffsets_mono codimOf contains size (a := a.1 + 1) hlt (Nat.le_of_lt hb)
    omega
  · rw [heq] at h
    exact Prod.ext heq (by omega)
  · have := ghostOffsets_mono codimOf contains size (a := b.1 + 1) hlt (Nat.le_of_lt ha)
    omega

theorem ghostOffsets_range (codimOf : List Nat) (contains : Nat → Bool) (size : Nat → Nat) (a : Nat × Nat)
    (ha : a.1 < codimOf.length) (hca : contains (codimOf.getD a.1 0) = true) (hia : a.2 < size a.1) :
    (ghostOffsets codimOf contains size).getD a.1 0 + a.2 < (ghostOffsets codimOf contains size).getLastD 0 := by
  rw [ghostOffsets_last]
  exact Nat.lt_of_lt_of_le (ghostOffsets_step codimOf contains size a.1 a.2 ha hca hia)
    (ghostOffsets_mono codimOf contains size ha (Nat.le_refl _))

/-! ### Trees -/

theorem lookup_leaf {α : Type} (a : α) (path : List Nat) : lookup (.leaf a) path = some a := by
  cases path <;> rfl

theorem lookup_node {α : Type} (ts : List (Tree α)) (k : Nat) (path : List Nat) (t : Tree α) (h : ts[k]? = some t) :
    lookup (.node ts) (k :: path) = lookup t path := by
  rw [lookup, h]

theorem pairs_lookup {P L : Type} : ∀ (p : Tree P) (t : Tree L) (ps : List (P × L)), pairs p t = some ps →
    ps.map (fun x => some x.1) = (paths t).map (lookup p) := by
  have leavesLen : ∀ t : Tree L, t.leaves.length = (paths t).length := by
    intro t
    induction t using Tree.leaves.induct (motive_2 := fun ts => ∀ k, (Tree.leavesList ts).length = (pathsList k ts).length) with
    | case1 => rfl
    | case2 ts ih => rw [Tree.leaves, paths]; exact ih 0
    | case3 => rfl
    | case4 t ts ih1 ih2 =>
      rename_i k
      rw [Tree.leavesList, pathsList]
      simp [ih1, ih2 (k + 1)]
  intro p t
  induction p, t using pairs.induct (motive_2 := fun ps ts => ∀ (r : List (P × L)) (pre : List (Tree P)),
    pairsList ps ts = some r → r.map (fun x => some x.1) = (pathsList pre.length ts).map (lookup (.node (pre ++ ps)))) with
  | case1 p t =>
    intro ps h
    rw [pairs] at h
    cases h
    have : (paths t).map (lookup (.leaf p)) = (paths t).map fun _ => some p := List.map_congr_left fun q _ => lookup_leaf p q
    rw [this, List.map_map]
    simp [Function.comp_def, leavesLen t]
  | case2 => intro ps h; simp [pairs] at h
  | case3 ps ts ih =>
    intro r h
    rw [pairs] at h
    rw [paths]
    exact ih r [] h
  | case4 =>
    rename_i r pre h
    simp only [pairsList, Option.some.injEq] at h
    subst h
    rfl
  | case5 p ps t ts ih1 ih2 =>
    rename_i r pre h
    rw [pairsList] at h
    simp only [Option.bind_eq_bind, Option.pure_def, Option.bind_eq_some_iff, Option.some.injEq] at h
    obtain ⟨a, ha, b, hb, rfl⟩ := h
    have h2 := ih2 b (pre ++ [p]) hb
    simp only [List.length_append, List.length_cons, List.length_nil, Nat.zero_add, List.append_assoc, List.singleton_append]
      at h2
    rw [List.map_append, ih1 a ha, h2, pathsList, List.map_append, List.map_map]
    congr 1
    refine List.map_congr_left fun q _ => ?_
    rw [Function.comp_apply, lookup_node _ _ _ p (by simp)]
  | case6 a b h1 h2 =>
    rename_i r pre h
    rw [pairsList] at h
    · simp at h
    · exact h1
    · exact h2

theorem paths_lookup {α : Type} (t : Tree α) : (paths t).map (lookup t) = t.leaves.map some := by
  induction t using Tree.leaves.induct (motive_2 := fun ts => ∀ pre : List (Tree α),
    (pathsList pre.length ts).map (lookup (.node (pre ++ ts))) = (Tree.leavesList ts).map some) with
  | case1 => rfl
  | case2 ts ih => rw [Tree.leaves, paths]; exact ih []
  | case3 => rfl
  | case4 t ts ih1 ih2 =>
    rename_i pre
    have h2 := ih2 (pre ++ [t])
    simp only [List.length_append, List.length_cons, List.length_nil, Nat.zero_add, List.append_assoc, List.singleton_append]
      at h2
    rw [pathsList, List.map_append, h2, Tree.leavesList, List.map_append, List.map_map, ← ih1]
    congr 1
    refine List.map_congr_left fun q _ => ?_
    rw [Function.comp_apply, lookup_node _ _ _ t (by simp)]

theorem gfToConstraintsList_getElem? (ts : List (Tree GridFunction)) (k : Nat) :
    (gfToConstraintsList ts)[k]? = ts[k]?.map gfToConstraints := by
  induction ts generalizing k with
  | nil => simp [gfToConstraintsList]
  | cons t ts ih => cases k <;> simp [gfToConstraintsList, ih]

/-- The path to a leaf of a tree of functions, followed by `rest`, in the transformed tree. -/
theorem gfToConstraints_lookup (t : Tree GridFunction) (path rest : List Nat) (f : GridFunction) (hp : path ∈ paths t)
    (hf : lookup t path = some f) : lookup (gfToConstraints t) (path ++ rest) = lookup (gfToConstraints (.leaf f)) rest := by
  have hlist : ∀ (ts : List (Tree GridFunction)) (k : Nat) (q : List Nat), q ∈ pathsList k ts →
      ∃ j q' t, q = (k + j) :: q' ∧ ts[j]? = some t ∧ q' ∈ paths t := by
    intro ts
    induction ts with
    | nil => intro k q h; simp [pathsList] at h
    | cons t ts ih =>
      intro k q h
      rw [pathsList, List.mem_append] at h
      rcases h with h | h
      · obtain ⟨q', h1, rfl⟩ := List.mem_map.1 h
        exact ⟨0, q', t, rfl, rfl, h1⟩
      · obtain ⟨j, q', t', rfl, h2, h3⟩ := ih (k + 1) q h
        exact ⟨j + 1, q', t', by rw [Nat.add_assoc, Nat.add_comm 1 j], by simpa using h2, h3⟩
  induction path generalizing t with
  | nil =>
    cases t with
    | leaf g => rw [lookup] at hf; cases hf; rfl
    | node ts => rw [lookup] at hf; cases hf
  | cons k path ih =>
    cases t with
    | leaf g => simp [paths] at hp
    | node ts =>
      rw [paths] at hp
      obtain ⟨j, q', t', h1, h2, h3⟩ := hlist ts 0 _ hp
      simp only [Nat.zero_add, List.cons.injEq] at h1
      obtain ⟨rfl, rfl⟩ := h1
      rw [lookup_node _ _ _ t' h2] at hf
      have hg : gfToConstraints (.node ts) = .node (gfToConstraintsList ts) := by rw [gfToConstraints]
      rw [hg, List.cons_append, lookup_node _ _ _ (gfToConstraints t')]
      · exact ih t' h3 hf
      · rw [gfToConstraintsList_getElem?, h2]; rfl

end Verif.ConsAsm
