import Verif.Spec.UserConstraints
import Verif.Proofs.ConstraintsAssembly
/-
Helpers for the theorem about constraints classes written by users.
-/
namespace Verif.ConsAsm

open GridAssembler Constraints Spec

variable {D F I : Type} (R : Leaf D F → Report D) (ps : List (Param × Leaf D F)) (ls : List (Leaf D F)) (hls : ps.map Prod.snd = ls)
  (hR : ∀ l ∈ ls, Reports l.cons (R l))

include hls hR

theorem userVolume (e : Elem) {cl : CL D F} {S : D → Prop} (h : Pure cl S) :
    Pure (callVolume ps e cl) fun d => S d ∨ ∃ pl ∈ ps, pl.2.cons.doVolume = true ∧ pl.2.keys e ≠ [] ∧ (R pl.2).volume pl.1 e (pl.2.bind e) d := by
  refine pure_foldl _ (fun pl d => pl.2.cons.doVolume = true ∧ pl.2.keys e ≠ [] ∧ (R pl.2).volume pl.1 e (pl.2.bind e) d) ps ?_ h
  intro pl hpl cl S hS
  have hr := hR pl.2 (by rw [← hls]; exact List.mem_map_of_mem hpl)
  by_cases h1 : pl.2.cons.doVolume = true
  · rw [if_pos h1]
    by_cases h2 : pl.2.keys e = []
    · rw [if_pos (by simp [h2])]
      exact hS.congr fun d => by simp [h2]
    · rw [if_neg (by simpa using h2)]
      exact (show Pure _ _ from hr.volume pl.1 e (pl.2.bind e) cl S hS).congr fun d => by simp [h1, h2]
  · rw [if_neg h1]
    exact hS.congr fun d => by simp [h1]

theorem userBoundary (e : Elem) (i : CIsect) {cl : CL D F} {S : D → Prop} (h : Pure cl S) :
    Pure (callBoundary ps e i cl) fun d => S d ∨ ∃ pl ∈ ps, pl.2.cons.doBoundary = true ∧ pl.2.keys e ≠ [] ∧
      (R pl.2).boundary pl.1 e i (pl.2.bind e) d := by
  refine pure_foldl _ (fun pl d => pl.2.cons.doBoundary = true ∧ pl.2.keys e ≠ [] ∧ (R pl.2).boundary pl.1 e i (pl.2.bind e) d) ps ?_ h
  intro pl hpl cl S hS
  have hr := hR pl.2 (by rw [← hls]; exact List.mem_map_of_mem hpl)
  by_cases h1 : pl.2.cons.doBoundary = true
  · rw [if_pos h1]
    by_cases h2 : pl.2.keys e = []
    · rw [if_pos (by simp [h2])]
      exact hS.congr fun d => by simp [h2]
    · rw [if_neg (by simpa using h2)]
      exact (show Pure _ _ from hr.boundary pl.1 e i (pl.2.bind e) cl S hS).congr fun d => by simp [h1, h2]
  · rw [if_neg h1]
    exact hS.congr fun d => by simp [h1]

theorem userProcessor (e : Elem) (i : CIsect) {cl : CL D F} {S : D → Prop} (h : Pure cl S) :
    Pure (callProcessor ls e i cl) fun d => S d ∨ ∃ l ∈ ls, l.cons.doProcessor = true ∧ l.keys e ≠ [] ∧ (R l).processor e i (l.bind e) d := by
  refine pure_foldl _ (fun l d => l.cons.doProcessor = true ∧ l.keys e ≠ [] ∧ (R l).processor e i (l.bind e) d) ls ?_ h
  intro l hl cl S hS
  have hr := hR l hl
  by_cases h1 : l.cons.doProcessor = true
  · rw [if_pos h1]
    by_cases h2 : l.keys e = []
    · rw [if_pos (by simp [h2])]
      exact hS.congr fun d => by simp [h2]
    · rw [if_neg (by simpa using h2)]
      exact (show Pure _ _ from hr.processor e i (l.bind e) cl S hS).congr fun d => by simp [h1, h2]
  · rw [if_neg h1]
    exact hS.congr fun d => by simp [h1]

omit hls in
theorem userSkeleton (e : Elem) (i : CIsect) (f : Elem) {cl cl' : CL D F} {S S' : D → Prop} (h : Pure cl S) (h' : Pure cl' S') :
    Pure (callSkeleton ls e i f cl cl').1 (fun d => S d ∨ ∃ l ∈ ls, l.cons.doSkeleton = true ∧ (l.keys e ≠ [] ∨ l.keys f ≠ []) ∧
      (R l).inside e i f (l.bind e) (l.bind f) d) ∧
    Pure (callSkeleton ls e i f cl cl').2 (fun d => S' d ∨ ∃ l ∈ ls, l.cons.doSkeleton = true ∧ (l.keys e ≠ [] ∨ l.keys f ≠ []) ∧
      (R l).outside e i f (l.bind e) (l.bind f) d) := by
  unfold callSkeleton
  induction ls generalizing cl cl' S S' with
  | nil => exact ⟨h.congr fun d => by simp, h'.congr fun d => by simp⟩
  | cons l ls ih =>
    rw [List.foldl_cons]
    have hr := hR l (List.mem_cons_self ..)
    have ih := fun (cl cl' : CL D F) (S S' : D → Prop) => ih (fun l' hl' => hR l' (List.mem_cons_of_mem _ hl')) (cl := cl) (cl' := cl') (S := S) (S' := S')
    by_cases h1 : l.cons.doSkeleton = true
    · rw [if_pos h1]
      by_cases h2 : (l.keys e).length = 0 ∧ (l.keys f).length = 0
      · rw [if_pos h2]
        obtain ⟨i1, i2⟩ := ih cl cl' S S' h h'
        have h3 : ¬ (l.keys e ≠ [] ∨ l.keys f ≠ []) := by simpa using h2
        exact ⟨i1.congr fun d => by simp only [List.mem_cons, exists_eq_or_imp, h3, false_and, and_false, false_or],
          i2.congr fun d => by simp only [List.mem_cons, exists_eq_or_imp, h3, false_and, and_false, false_or]⟩
      · rw [if_neg h2]
        obtain ⟨j1, j2⟩ := hr.skeleton e i f (l.bind e) (l.bind f) cl cl' S S' h h'
        obtain ⟨i1, i2⟩ := ih _ _ _ _ j1 j2
        have h3 : l.keys e ≠ [] ∨ l.keys f ≠ [] := by
          by_contra hc
          apply h2
          simpa using hc
        exact ⟨i1.congr fun d => by simp only [List.mem_cons, exists_eq_or_imp, h1, h3, true_and, or_assoc],
          i2.congr fun d => by simp only [List.mem_cons, exists_eq_or_imp, h1, h3, true_and, or_assoc]⟩
    · rw [if_neg h1]
      obtain ⟨i1, i2⟩ := ih cl cl' S S' h h'
      exact ⟨i1.congr fun d => by simp only [List.mem_cons, exists_eq_or_imp, h1, Bool.false_eq_true, false_and, false_or],
        i2.congr fun d => by simp only [List.mem_cons, exists_eq_or_imp, h1, Bool.false_eq_true, false_and, false_or]⟩

omit hls hR

/-- The rows in a list of contributions are exactly Dirichlet constraints of the DOFs in `T`. -/
def PureList (cs : List (Contribution D I F)) (T : D → Prop) : Prop := ∀ d r, (∃ c ∈ cs, (d, r) ∈ c.rows) ↔ r = [] ∧ T d

/-- What is reported at one face. -/
def ReportedAt (R : Leaf D F → Report D) (ps : List (Param × Leaf D F)) (ap : Bool) (element : Nat → Elem) (e : Elem) (i : CIsect) (d : D) : Prop :=
  (classify ap i.toIsect = .boundary ∧ ∃ pl ∈ ps, pl.2.cons.doBoundary = true ∧ pl.2.keys e ≠ [] ∧ (R pl.2).boundary pl.1 e i (pl.2.bind e) d) ∨
  (classify ap i.toIsect = .processor ∧ ∃ pl ∈ ps, pl.2.cons.doProcessor = true ∧ pl.2.keys e ≠ [] ∧ (R pl.2).processor e i (pl.2.bind e) d) ∨
  ((classify ap i.toIsect = .skeleton ∨ classify ap i.toIsect = .periodic) ∧ i.outside < e.id ∧ ∃ pl ∈ ps, pl.2.cons.doSkeleton = true ∧
    (pl.2.keys e ≠ [] ∨ pl.2.keys (element i.outside) ≠ []) ∧
    ((R pl.2).inside e i (element i.outside) (pl.2.bind e) (pl.2.bind (element i.outside)) d ∨
      (R pl.2).outside e i (element i.outside) (pl.2.bind e) (pl.2.bind (element i.outside)) d))

theorem exists_pair {ps : List (Param × Leaf D F)} {ls : List (Leaf D F)} (hls : ps.map Prod.snd = ls) (P : Leaf D F → Prop) :
    (∃ l ∈ ls, P l) ↔ ∃ pl ∈ ps, P pl.2 := by
  subst hls
  constructor
  · rintro ⟨l, hl, h⟩
    obtain ⟨pl, hpl, rfl⟩ := List.mem_map.1 hl
    exact ⟨pl, hpl, h⟩
  · rintro ⟨pl, hpl, h⟩
    exact ⟨pl.2, List.mem_map_of_mem hpl, h⟩

theorem pureList_append {cs : List (Contribution D I F)} {T T' : D → Prop} (h : PureList cs T) (index : D → I) {cl : CL D F} (h' : Pure cl T') :
    PureList (if cl.isEmpty then cs else cs ++ [⟨index, cl⟩]) fun d => T d ∨ T' d := by
  intro d r
  have e1 := h d r
  have e2 := h' d r
  have key : (∃ c ∈ (if cl.isEmpty then cs else cs ++ [⟨index, cl⟩]), (d, r) ∈ c.rows) ↔ (∃ c ∈ cs, (d, r) ∈ c.rows) ∨ (d, r) ∈ cl := by
    cases cl with
    | nil => simp
    | cons a cl =>
      rw [if_neg (by simp)]
      constructor
      · rintro ⟨c, hc, hd⟩
        rcases List.mem_append.1 hc with hc | hc
        · exact .inl ⟨c, hc, hd⟩
        · rw [List.mem_singleton] at hc
          subst hc
          exact .inr hd
      · rintro (⟨c, hc, hd⟩ | hd)
        · exact ⟨c, List.mem_append_left _ hc, hd⟩
        · exact ⟨⟨index, a :: cl⟩, List.mem_append_right _ (by simp), hd⟩
  rw [key, e1, e2]
  constructor
  · rintro (⟨a, b⟩ | ⟨a, b⟩)
    · exact ⟨a, .inl b⟩
    · exact ⟨a, .inr b⟩
  · rintro ⟨a, b | b⟩
    · exact .inl ⟨a, b⟩
    · exact .inr ⟨a, b⟩

include hls hR

theorem userIsect (ap : Bool) (element : Nat → Elem) (index : D → I) (e : Elem) (i : CIsect) (s : CL D F × List (Contribution D I F))
    {S T : D → Prop} (h : Pure s.1 S) (h' : PureList s.2 T) :
    ∃ S' T', Pure (visitIsect ap element index ps ls e s i).1 S' ∧ PureList (visitIsect ap element index ps ls e s i).2 T' ∧
      ∀ d, (S' d ∨ T' d) ↔ (S d ∨ T d) ∨ ReportedAt R ps ap element e i d := by
  have skel : (classify ap i.toIsect = .skeleton ∨ classify ap i.toIsect = .periodic) →
      visitIsect ap element index ps ls e s i = (if e.id > i.outside then
        ((callSkeleton ls e i (element i.outside) s.1 []).1, if (callSkeleton ls e i (element i.outside) s.1 []).2.isEmpty then s.2
          else s.2 ++ [⟨index, (callSkeleton ls e i (element i.outside) s.1 []).2⟩]) else s) →
      ∃ S' T', Pure (visitIsect ap element index ps ls e s i).1 S' ∧ PureList (visitIsect ap element index ps ls e s i).2 T' ∧
        ∀ d, (S' d ∨ T' d) ↔ (S d ∨ T d) ∨ ReportedAt R ps ap element e i d := by
    intro hk heq
    have hb : classify ap i.toIsect ≠ .boundary := by rcases hk with hk | hk <;> rw [hk] <;> simp
    have hp : classify ap i.toIsect ≠ .processor := by rcases hk with hk | hk <;> rw [hk] <;> simp
    rw [heq]
    by_cases ho : e.id > i.outside
    · rw [if_pos ho]
      obtain ⟨j1, j2⟩ := userSkeleton R ls hR e i (element i.outside) h (pure_nil (F := F))
      refine ⟨_, _, j1, pureList_append h' index j2, fun d => ?_⟩
      unfold ReportedAt
      rw [exists_pair hls, exists_pair hls]
      simp only [hb, hp, hk, false_and, false_or, true_and, show i.outside < e.id from ho]
      constructor
      · rintro ((h | ⟨pl, a, b, c, d⟩) | (h | ⟨pl, a, b, c, d⟩))
        · exact .inl (.inl h)
        · exact .inr ⟨pl, a, b, c, .inl d⟩
        · exact .inl (.inr h)
        · exact .inr ⟨pl, a, b, c, .inr d⟩
      · rintro ((h | h) | ⟨pl, a, b, c, d | d⟩)
        · exact .inl (.inl h)
        · exact .inr (.inl h)
        · exact .inl (.inr ⟨pl, a, b, c, d⟩)
        · exact .inr (.inr ⟨pl, a, b, c, d⟩)
    · rw [if_neg ho]
      refine ⟨S, T, h, h', fun d => ?_⟩
      unfold ReportedAt
      simp only [hb, hp, hk, false_and, false_or, true_and, show ¬ i.outside < e.id from ho, or_false]
  cases hc : classify ap i.toIsect with
  | skeleton => exact skel (.inl hc) (by unfold visitIsect; rw [hc])
  | periodic => exact skel (.inr hc) (by unfold visitIsect; rw [hc])
  | boundary =>
    have heq : visitIsect ap element index ps ls e s i = (callBoundary ps e i s.1, s.2) := by unfold visitIsect; rw [hc]
    rw [heq]
    refine ⟨_, T, userBoundary R ps ls hls hR e i h, h', fun d => ?_⟩
    unfold ReportedAt
    simp only [hc, reduceCtorEq, false_and, or_false, true_and, false_or]
    constructor
    · rintro ((h | h) | h)
      · exact .inl (.inl h)
      · exact .inr h
      · exact .inl (.inr h)
    · rintro ((h | h) | h)
      · exact .inl (.inl h)
      · exact .inr h
      · exact .inl (.inr h)
  | processor =>
    have heq : visitIsect ap element index ps ls e s i = (callProcessor ls e i s.1, s.2) := by unfold visitIsect; rw [hc]
    rw [heq]
    refine ⟨_, T, userProcessor R ps ls hls hR e i h, h', fun d => ?_⟩
    unfold ReportedAt
    rw [exists_pair hls]
    simp only [hc, reduceCtorEq, false_and, or_false, true_and, false_or]
    constructor
    · rintro ((h | h) | h)
      · exact .inl (.inl h)
      · exact .inr h
      · exact .inl (.inr h)
    · rintro ((h | h) | h)
      · exact .inl (.inl h)
      · exact .inr h
      · exact .inl (.inr h)

theorem userIsects (ap : Bool) (element : Nat → Elem) (index : D → I) (e : Elem) (is : List CIsect) (s : CL D F × List (Contribution D I F))
    {S T : D → Prop} (h : Pure s.1 S) (h' : PureList s.2 T) :
    ∃ S' T', Pure (is.foldl (visitIsect ap element index ps ls e) s).1 S' ∧ PureList (is.foldl (visitIsect ap element index ps ls e) s).2 T' ∧
      ∀ d, (S' d ∨ T' d) ↔ (S d ∨ T d) ∨ ∃ i ∈ is, ReportedAt R ps ap element e i d := by
  induction is generalizing s S T with
  | nil => exact ⟨S, T, h, h', fun d => by simp⟩
  | cons i is ih =>
    rw [List.foldl_cons]
    obtain ⟨S1, T1, a1, a2, a3⟩ := userIsect R ps ls hls hR ap element index e i s h h'
    obtain ⟨S2, T2, b1, b2, b3⟩ := ih _ a1 a2
    refine ⟨S2, T2, b1, b2, fun d => ?_⟩
    rw [b3, a3]
    simp only [List.mem_cons, exists_eq_or_imp, or_assoc]

theorem userElement (ap : Bool) (element : Nat → Elem) (index : D → I) (e : Elem) (d : D) (r : List (D × F)) :
    (∃ c ∈ visitElement ap element index ps ls e, (d, r) ∈ c.rows) ↔ r = [] ∧ Reported ap element ps R e d := by
  obtain ⟨S, T, h1, h2, h3⟩ := userIsects (I := I) R ps ls hls hR ap element index e e.isects (callVolume ps e [], [])
    (userVolume R ps ls hls hR e pure_nil) (T := fun _ => False) (by intro d r; simp)
  unfold visitElement
  have h4 := pureList_append h2 index h1 d r
  have key : ((T d ∨ S d) ↔ Reported ap element ps R e d) := by
    rw [or_comm, h3]
    constructor
    · rintro (((h | ⟨pl, a, b, c, hd⟩) | h) | ⟨i, hi, h⟩)
      · exact h.elim
      · exact .volume pl.1 pl.2 a b c hd
      · exact h.elim
      · rcases h with ⟨hk, pl, a, b, c, hd⟩ | ⟨hk, pl, a, b, c, hd⟩ | ⟨hk, ho, pl, a, b, c, hd⟩
        · exact .boundary pl.1 pl.2 a i hi hk b c hd
        · exact .processor pl.1 pl.2 a i hi hk b c hd
        · exact .skeleton pl.1 pl.2 a i hi hk ho b c hd
    · intro h
      cases h with
      | volume p l a b c hd => exact .inl (.inl (.inr ⟨(p, l), a, b, c, hd⟩))
      | boundary p l a i hi hk b c hd => exact .inr ⟨i, hi, .inl ⟨hk, (p, l), a, b, c, hd⟩⟩
      | processor p l a i hi hk b c hd => exact .inr ⟨i, hi, .inr (.inl ⟨hk, (p, l), a, b, c, hd⟩)⟩
      | skeleton p l a i hi hk ho b c hd => exact .inr ⟨i, hi, .inr (.inr ⟨hk, ho, (p, l), a, b, c, hd⟩)⟩
  dsimp only at h4
  rw [key] at h4
  rw [← h4]
  generalize (e.isects.foldl (visitIsect ap element index ps ls e) (callVolume ps e [], [])) = s
  dsimp only
  cases s.1.isEmpty <;> simp

theorem userElements (ap : Bool) (elements : List Elem) (element : Nat → Elem) (index : D → I) (k : I) (r : List (D × F)) :
    (∃ c ∈ elements.flatMap (visitElement ap element index ps ls), ∃ d, (d, r) ∈ c.rows ∧ c.index d = k) ↔
      r = [] ∧ ∃ e ∈ elements, ∃ d, Reported ap element ps R e d ∧ index d = k := by
  simp only [List.mem_flatMap]
  constructor
  · rintro ⟨c, ⟨e, he, hc⟩, d, hd, hk⟩
    have hi := visitElement_index ps ls ap element index e c hc
    have := (userElement R ps ls hls hR ap element index e d r).1 ⟨c, hc, hd⟩
    exact ⟨this.1, e, he, d, this.2, by rw [← hk, hi]⟩
  · rintro ⟨hr, e, he, d, hd, hk⟩
    obtain ⟨c, hc, hd⟩ := (userElement R ps ls hls hR ap element index e d r).2 ⟨hr, hd⟩
    exact ⟨c, ⟨e, he, hc⟩, d, hd, by rw [visitElement_index ps ls ap element index e c hc, hk]⟩

end Verif.ConsAsm
