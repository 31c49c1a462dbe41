import Verif.Spec.Constraints
import Mathlib.Data.List.Basic
import Mathlib.Data.List.Nodup
import Mathlib.Data.List.Perm.Basic
import Mathlib.Algebra.BigOperators.Group.List.Basic
import Mathlib.Algebra.BigOperators.Ring.List
import Mathlib.Tactic.Ring
/-
Helper lemmas for the constraints theorems.
-/
namespace Verif.Constraints

section Maps
variable {K V : Type} [DecidableEq K]

theorem find?_assign (k k' : K) (v : V) (m : List (K × V)) :
    find? k' (assign k v m) = if k' = k then some v else find? k' m := by
  induction m with
  | nil =>
    simp only [assign, find?]
    by_cases h : k' = k
    · simp [h]
    · rw [if_neg h, if_neg (fun e => h e.symm)]
  | cons a m ih =>
    obtain ⟨a, w⟩ := a
    simp only [assign]
    by_cases h : a = k
    · rw [if_pos h]
      simp only [find?]
      by_cases h2 : k' = k
      · rw [if_pos h2, if_pos (by rw [h, h2])]
      · rw [if_neg h2, if_neg (by rw [h]; exact fun e => h2 e.symm),
          if_neg (by rw [h]; exact fun e => h2 e.symm)]
    · rw [if_neg h]
      simp only [find?]
      by_cases h2 : a = k'
      · rw [if_pos h2, if_neg (by rw [← h2]; exact h), if_pos h2]
      · rw [if_neg h2, if_neg h2, ih]

theorem keys_assign (k : K) (v : V) (m : List (K × V)) :
    (assign k v m).map Prod.fst = if k ∈ m.map Prod.fst then m.map Prod.fst else m.map Prod.fst ++ [k] := by
  induction m with
  | nil => simp [assign]
  | cons a m ih =>
    obtain ⟨a, w⟩ := a
    simp only [assign]
    by_cases h : a = k
    · simp [h]
    · rw [if_neg h]
      simp only [List.map_cons, List.mem_cons, ih]
      have : (k = a) = False := by simp; exact fun e => h e.symm
      simp only [this, false_or]
      split <;> simp

theorem nodup_assign (k : K) (v : V) (m : List (K × V)) (h : (m.map Prod.fst).Nodup) :
    ((assign k v m).map Prod.fst).Nodup := by
  rw [keys_assign]
  split
  · exact h
  · rename_i hk
    rw [List.nodup_append]
    refine ⟨h, by simp, ?_⟩
    intro a ha b hb e
    simp at hb; subst hb; subst e; exact hk ha

theorem find?_some_mem (k : K) (v : V) (m : List (K × V)) (h : find? k m = some v) : (k, v) ∈ m := by
  induction m with
  | nil => simp [find?] at h
  | cons a m ih =>
    obtain ⟨a, w⟩ := a
    simp only [find?] at h
    split at h
    · rename_i e; simp at h; subst e; subst h; simp
    · exact List.mem_cons_of_mem _ (ih h)

theorem find?_iff_mem (k : K) (v : V) (m : List (K × V)) (hn : (m.map Prod.fst).Nodup) :
    find? k m = some v ↔ (k, v) ∈ m := by
  refine ⟨find?_some_mem k v m, ?_⟩
  induction m with
  | nil => simp
  | cons a m ih =>
    obtain ⟨a, w⟩ := a
    intro h
    simp only [List.map_cons, List.nodup_cons] at hn
    simp only [find?]
    rcases List.mem_cons.mp h with h | h
    · simp only [Prod.mk.injEq] at h; simp [h.1, h.2]
    · rw [if_neg]
      · exact ih hn.2 h
      · intro e; subst e
        exact hn.1 (List.mem_map_of_mem (f := Prod.fst) h)

theorem find?_none_iff (k : K) (m : List (K × V)) : find? k m = none ↔ ∀ v, (k, v) ∉ m := by
  induction m with
  | nil => simp [find?]
  | cons a m ih =>
    obtain ⟨a, w⟩ := a
    simp only [find?]
    by_cases h : a = k
    · subst h
      rw [if_pos rfl]
      exact ⟨fun h' => by simp at h', fun h' => absurd (by simp) (h' w)⟩
    · rw [if_neg h, ih]
      constructor
      · intro h' v hv
        rcases List.mem_cons.mp hv with e | e
        · simp only [Prod.mk.injEq] at e; exact h e.1.symm
        · exact h' v e
      · intro h' v hv; exact h' v (List.mem_cons_of_mem _ hv)

theorem find?_foldl_assign (row : List (K × V)) : ∀ (g : List (K × V)) (j : K) (w : V),
    find? j (row.foldl (fun g e => assign e.1 e.2 g) g) = some w →
    (j, w) ∈ row ∨ find? j g = some w := by
  induction row with
  | nil => intro g j w h; exact Or.inr h
  | cons a row ih =>
    intro g j w h
    rcases ih _ _ _ h with h | h
    · exact Or.inl (List.mem_cons_of_mem _ h)
    · rw [find?_assign] at h
      split at h
      · rename_i e; simp only [Option.some.injEq] at h; left; rw [e, ← h]; simp
      · exact Or.inr h

theorem find?_foldl_assign_isSome (row : List (K × V)) : ∀ (g : List (K × V)) (j : K),
    (∃ w, find? j (row.foldl (fun g e => assign e.1 e.2 g) g) = some w) ↔
    ((∃ w, (j, w) ∈ row) ∨ ∃ w, find? j g = some w) := by
  induction row with
  | nil => intro g j; simp
  | cons a row ih =>
    intro g j
    simp only [List.foldl_cons]
    rw [ih, find?_assign]
    constructor
    · rintro (⟨w, h⟩ | ⟨w, h⟩)
      · exact Or.inl ⟨w, List.mem_cons_of_mem _ h⟩
      · split at h
        · rename_i e; subst e; exact Or.inl ⟨a.2, by simp⟩
        · exact Or.inr ⟨w, h⟩
    · rintro (⟨w, h⟩ | ⟨w, h⟩)
      · rcases List.mem_cons.mp h with h | h
        · subst h; right; exact ⟨w, by simp⟩
        · exact Or.inl ⟨w, h⟩
      · right
        by_cases e : j = a.1
        · exact ⟨a.2, by rw [if_pos e]⟩
        · exact ⟨w, by rw [if_neg e]; exact h⟩

theorem foldl_assign_ne_nil (row : List (K × V)) (g : List (K × V)) (h : row ≠ []) :
    row.foldl (fun g e => assign e.1 e.2 g) g ≠ [] := by
  cases row with
  | nil => exact absurd rfl h
  | cons a row =>
    intro e
    have := (find?_foldl_assign_isSome (a :: row) g a.1).mpr (Or.inl ⟨a.2, by simp⟩)
    rw [e] at this
    simp [find?] at this

theorem nodup_foldl_assign (row : List (K × V)) : ∀ (g : List (K × V)), (g.map Prod.fst).Nodup →
    ((row.foldl (fun g e => assign e.1 e.2 g) g).map Prod.fst).Nodup := by
  induction row with
  | nil => intro g h; exact h
  | cons a row ih => intro g h; exact ih _ (nodup_assign _ _ _ h)

end Maps

section Import
variable {I F : Type} [DecidableEq I]

/-- The effect of a sequence of (container index, row) events. -/
def runEvents (evs : List (I × List (I × F))) (cg : Trafo I F) : Trafo I F :=
  evs.foldl (fun cg e => cg.importOne e.1 e.2) cg

theorem runEvents_snoc (evs : List (I × List (I × F))) (e : I × List (I × F)) (cg : Trafo I F) :
    runEvents (evs ++ [e]) cg = (runEvents evs cg).importOne e.1 e.2 := by
  simp [runEvents]

open Classical in
theorem importOne_find (cg : Trafo I F) (k k' : I) (row : List (I × F)) :
    find? k' (cg.importOne k row).rows =
      if k' = k then
        (if find? k cg.rows = some [] ∨ row = [] then some []
         else some (row.foldl (fun g e => assign e.1 e.2 g) ((find? k cg.rows).getD [])))
      else find? k' cg.rows := by
  unfold Trafo.importOne
  split
  · rename_i h
    by_cases e : k' = k
    · subst e; simp [h]
    · simp [e]
  · rename_i found h
    have hne : find? k cg.rows ≠ some [] := by
      intro e; exact h e
    cases row with
    | nil =>
      simp only [find?_assign]
      by_cases e : k' = k
      · simp [e]
      · simp [e]
    | cons a row =>
      simp only [find?_assign]
      by_cases e : k' = k
      · simp [e, hne]
      · simp [e]

/-- The invariant of the container with respect to the events processed. -/
structure Inv (evs : List (I × List (I × F))) (cg : Trafo I F) : Prop where
  nodup : (cg.rows.map Prod.fst).Nodup
  dirichlet : ∀ k, find? k cg.rows = some [] ↔ (k, []) ∈ evs
  present : ∀ k, (∃ r, find? k cg.rows = some r) ↔ ∃ r, (k, r) ∈ evs
  flag : ∀ k r, find? k cg.rows = some r → r ≠ [] → cg.nonDirichlet = true
  flagOnly : cg.nonDirichlet = true → ∃ k r, (k, r) ∈ evs ∧ r ≠ []
  source : ∀ k r j w, find? k cg.rows = some r → find? j r = some w → ∃ r', (k, r') ∈ evs ∧ (j, w) ∈ r'
  complete : ∀ k r r' j w, find? k cg.rows = some r → r ≠ [] → (k, r') ∈ evs → (j, w) ∈ r' →
    ∃ w', find? j r = some w'
  rowNodup : ∀ k r, find? k cg.rows = some r → (r.map Prod.fst).Nodup

theorem inv_empty : Inv ([] : List (I × List (I × F))) Trafo.empty := by
  constructor <;> simp [Trafo.empty, find?]

theorem importOne_nodup (cg : Trafo I F) (k : I) (row : List (I × F)) (h : (cg.rows.map Prod.fst).Nodup) :
    ((cg.importOne k row).rows.map Prod.fst).Nodup := by
  unfold Trafo.importOne
  split
  · exact h
  · cases row with
    | nil => exact nodup_assign _ _ _ h
    | cons => exact nodup_assign _ _ _ h

theorem importOne_flag (cg : Trafo I F) (k : I) (row : List (I × F)) :
    (cg.importOne k row).nonDirichlet = true ↔
      cg.nonDirichlet = true ∨ (find? k cg.rows ≠ some [] ∧ row ≠ []) := by
  unfold Trafo.importOne
  split
  · rename_i h; simp [h]
  · rename_i h
    have hne : find? k cg.rows ≠ some [] := fun e => h e
    cases row with
    | nil => simp
    | cons => simp [hne]

theorem inv_step (evs : List (I × List (I × F))) (cg : Trafo I F) (h : Inv evs cg) (k : I)
    (row : List (I × F)) : Inv (evs ++ [(k, row)]) (cg.importOne k row) := by
  constructor
  · exact importOne_nodup _ _ _ h.nodup
  · intro k'
    rw [importOne_find]
    by_cases e : k' = k
    · subst e
      rw [if_pos rfl]
      by_cases hd : find? k' cg.rows = some [] ∨ row = []
      · rw [if_pos hd]
        simp only [true_iff, List.mem_append, List.mem_singleton, Prod.mk.injEq, true_and]
        rcases hd with hd | hd
        · exact Or.inl ((h.dirichlet k').mp hd)
        · exact Or.inr hd.symm
      · rw [if_neg hd]
        rw [not_or] at hd
        simp only [Option.some.injEq, List.mem_append, List.mem_singleton, Prod.mk.injEq, true_and]
        constructor
        · intro e; exact absurd e (foldl_assign_ne_nil _ _ hd.2)
        · rintro (h1 | h1)
          · exact absurd ((h.dirichlet k').mpr h1) hd.1
          · exact absurd h1.symm hd.2
    · rw [if_neg e, h.dirichlet]
      simp [e]
  · intro k'
    rw [importOne_find]
    by_cases e : k' = k
    · subst e
      simp only [if_true]
      constructor
      · intro _; exact ⟨row, by simp⟩
      · intro _
        by_cases hd : find? k' cg.rows = some [] ∨ row = []
        · exact ⟨_, if_pos hd⟩
        · exact ⟨_, if_neg hd⟩
    · simp only [if_neg e]
      rw [h.present]
      simp [e]
  · intro k' r hr hne
    rw [importOne_flag]
    rw [importOne_find] at hr
    by_cases e : k' = k
    · subst e
      rw [if_pos rfl] at hr
      by_cases hd : find? k' cg.rows = some [] ∨ row = []
      · rw [if_pos hd] at hr; simp at hr; exact absurd hr hne
      · rw [not_or] at hd
        exact Or.inr hd
    · rw [if_neg e] at hr
      exact Or.inl (h.flag k' r hr hne)
  · intro hf
    rcases (importOne_flag _ _ _).mp hf with h1 | h1
    · obtain ⟨k', r, hm, hn⟩ := h.flagOnly h1
      exact ⟨k', r, List.mem_append_left _ hm, hn⟩
    · exact ⟨k, row, by simp, h1.2⟩
  · intro k' r j w hr hj
    rw [importOne_find] at hr
    by_cases e : k' = k
    · subst e
      rw [if_pos rfl] at hr
      by_cases hd : find? k' cg.rows = some [] ∨ row = []
      · rw [if_pos hd] at hr; simp at hr; subst hr; simp [find?] at hj
      · rw [if_neg hd] at hr
        simp only [Option.some.injEq] at hr
        subst hr
        rcases find?_foldl_assign _ _ _ _ hj with h1 | h1
        · exact ⟨row, by simp, h1⟩
        · cases hf : find? k' cg.rows with
          | none => simp [hf, find?] at h1
          | some g =>
            rw [hf] at h1
            obtain ⟨r', a, b⟩ := h.source k' g j w hf h1
            exact ⟨r', List.mem_append_left _ a, b⟩
    · rw [if_neg e] at hr
      obtain ⟨r', a, b⟩ := h.source k' r j w hr hj
      exact ⟨r', List.mem_append_left _ a, b⟩
  · intro k' r r' j w hr hne hm hj
    rw [importOne_find] at hr
    by_cases e : k' = k
    · subst e
      rw [if_pos rfl] at hr
      by_cases hd : find? k' cg.rows = some [] ∨ row = []
      · rw [if_pos hd] at hr; simp at hr; exact absurd hr hne
      · rw [if_neg hd] at hr
        simp only [Option.some.injEq] at hr
        subst hr
        rw [find?_foldl_assign_isSome]
        rcases List.mem_append.mp hm with h1 | h1
        · right
          obtain ⟨g, hg⟩ := (h.present k').mpr ⟨r', h1⟩
          rw [hg]
          rw [not_or] at hd
          exact h.complete k' g r' j w hg (fun e => hd.1 (by rw [hg, e])) h1 hj
        · simp at h1; subst h1; exact Or.inl ⟨w, hj⟩
    · rw [if_neg e] at hr
      rcases List.mem_append.mp hm with h1 | h1
      · exact h.complete k' r r' j w hr hne h1 hj
      · simp at h1; exact absurd h1.1 e
  · intro k' r hr
    rw [importOne_find] at hr
    by_cases e : k' = k
    · subst e
      rw [if_pos rfl] at hr
      by_cases hd : find? k' cg.rows = some [] ∨ row = []
      · rw [if_pos hd] at hr; simp at hr; subst hr; simp
      · rw [if_neg hd] at hr
        simp only [Option.some.injEq] at hr
        subst hr
        apply nodup_foldl_assign
        cases hf : find? k' cg.rows with
        | none => simp
        | some g => exact h.rowNodup k' g hf
    · rw [if_neg e] at hr
      exact h.rowNodup k' r hr

theorem inv_run (evs : List (I × List (I × F))) : Inv evs (runEvents evs Trafo.empty) := by
  induction h : evs.length generalizing evs with
  | zero => rw [List.length_eq_zero_iff.mp h]; exact inv_empty
  | succ n ih =>
    have hne : evs ≠ [] := by intro e; rw [e] at h; simp at h
    obtain ⟨init, e, rfl⟩ : ∃ init e, evs = init ++ [e] :=
      ⟨_, _, (List.dropLast_append_getLast hne).symm⟩
    rw [runEvents_snoc]
    exact inv_step _ _ (ih init (by simpa using h)) _ _

/-- The events of a list of contributions. -/
def events {D : Type} (cs : List (Contribution D I F)) : List (I × List (I × F)) :=
  cs.flatMap fun c => c.rows.map fun r => (c.index r.1, r.2.map fun e => (c.index e.1, e.2))

theorem assemble_eq_run {D : Type} (cs : List (Contribution D I F)) (cg : Trafo I F) :
    assembleNoParameters cs cg = runEvents (events cs) cg := by
  induction cs generalizing cg with
  | nil => rfl
  | cons c cs ih =>
    simp only [assembleNoParameters, List.foldl_cons]
    have := ih (cg.import c)
    simp only [assembleNoParameters] at this
    rw [this]
    simp only [events, List.flatMap_cons, runEvents, List.foldl_append]
    congr 1
    simp [Trafo.import, List.foldl_map]

omit [DecidableEq I] in
theorem mem_events {D : Type} (cs : List (Contribution D I F)) (k : I) (r : List (I × F)) :
    (k, r) ∈ events cs ↔ ∃ c ∈ cs, ∃ d row, (d, row) ∈ c.rows ∧ c.index d = k ∧
      r = row.map fun e => (c.index e.1, e.2) := by
  simp only [events, List.mem_flatMap, List.mem_map, Prod.mk.injEq, Prod.exists]
  constructor
  · rintro ⟨c, hc, d, row, hm, e1, e2⟩; exact ⟨c, hc, d, row, hm, e1, e2.symm⟩
  · rintro ⟨c, hc, d, row, hm, e1, e2⟩; exact ⟨c, hc, d, row, hm, e1, e2.symm⟩

end Import

section Vectors
variable {I F : Type} [DecidableEq I]

theorem foldl_upd_const {A : Type} (key : A → I) (val : A → F) (l : List A) : ∀ (x : I → F) (i : I),
    (∀ a ∈ l, ∀ b ∈ l, key a = key b → val a = val b) →
    (∀ a ∈ l, key a = i → (l.foldl (fun x a => upd x (key a) (val a)) x) i = val a) ∧
    ((∀ a ∈ l, key a ≠ i) → (l.foldl (fun x a => upd x (key a) (val a)) x) i = x i) := by
  induction l with
  | nil => intro x i _; simp
  | cons a l ih =>
    intro x i hc
    have ih' := ih (upd x (key a) (val a)) i
      (fun b hb c hc' => hc b (List.mem_cons_of_mem _ hb) c (List.mem_cons_of_mem _ hc'))
    constructor
    · intro b hb hbi
      simp only [List.foldl_cons]
      by_cases hex : ∃ c ∈ l, key c = i
      · obtain ⟨c, hcl, hci⟩ := hex
        rw [ih'.1 c hcl hci]
        exact hc c (List.mem_cons_of_mem _ hcl) b hb (hci.trans hbi.symm)
      · rw [ih'.2 (fun c hcl e => hex ⟨c, hcl, e⟩)]
        rcases List.mem_cons.mp hb with h | h
        · subst h; simp [upd, hbi]
        · exact absurd ⟨b, h, hbi⟩ hex
    · intro hn
      simp only [List.foldl_cons]
      rw [ih'.2 (fun c hcl => hn c (List.mem_cons_of_mem _ hcl))]
      have : ¬ i = key a := fun e => hn a (by simp) e.symm
      simp [upd, this]

theorem setConstrained_apply (cg : Trafo I F) (v : F) (x : I → F) (i : I) :
    (cg.Constrained i → setConstrained cg v x i = v) ∧ (¬ cg.Constrained i → setConstrained cg v x i = x i) := by
  have h := foldl_upd_const (fun col : I × List (I × F) => col.1) (fun _ => v) cg.rows x i
    (fun _ _ _ _ _ => rfl)
  constructor
  · rintro ⟨row, hr⟩; exact h.1 _ hr rfl
  · intro hn; exact h.2 (fun a ha e => hn ⟨a.2, by rw [← e]; exact ha⟩)

theorem copyConstrained_apply (cg : Trafo I F) (xin xout : I → F) (i : I) :
    (cg.Constrained i → copyConstrained cg xin xout i = xin i) ∧
    (¬ cg.Constrained i → copyConstrained cg xin xout i = xout i) := by
  have h := foldl_upd_const (fun col : I × List (I × F) => col.1) (fun col => xin col.1) cg.rows xout i
    (fun a _ b _ e => by simp only [e])
  constructor
  · rintro ⟨row, hr⟩; exact h.1 _ hr rfl
  · intro hn; exact h.2 (fun a ha e => hn ⟨a.2, by rw [← e]; exact ha⟩)

theorem setShifted_apply (cg : Trafo I F) (v : F) (x : I → F) (i : I) :
    (cg.Dirichlet i → setShifted cg v x i = x i) ∧ (¬ cg.Dirichlet i → setShifted cg v x i = v) := by
  have e : setShifted cg v x =
      (cg.rows.filter fun col => col.2.length = 0).foldl (fun t col => upd t col.1 (x col.1)) fun _ => v := by
    simp only [setShifted, List.foldl_filter]
    congr 1
    funext t col
    simp
  have h := foldl_upd_const (fun col : I × List (I × F) => col.1) (fun col => x col.1)
    (cg.rows.filter fun col => col.2.length = 0) (fun _ => v) i (fun a _ b _ e => by simp only [e])
  rw [e]
  constructor
  · intro hd; exact h.1 (i, []) (by simp [List.mem_filter]; exact hd) rfl
  · intro hn
    refine h.2 (fun a ha e => hn ?_)
    simp only [List.mem_filter, decide_eq_true_eq] at ha
    obtain ⟨a1, a2⟩ := a
    simp only at e ha
    subst e
    have : a2 = [] := List.length_eq_zero_iff.mp ha.2
    subst this
    exact ha.1

end Vectors

section Residual
variable {I F : Type} [DecidableEq I] [CommRing F]

theorem distributeCol_apply (col : I × List (I × F)) (h : ∀ e ∈ col.2, e.1 ≠ col.1) (x : I → F) (i : I) :
    distributeCol x col i = x i + coef col.2 i * x col.1 := by
  obtain ⟨c, row⟩ := col
  simp only [distributeCol] at *
  suffices ∀ (row : List (I × F)) (x : I → F), (∀ e ∈ row, e.1 ≠ c) →
      (row.foldl (fun x row => upd x row.1 (x row.1 + row.2 * x c)) x) i = x i + coef row i * x c from this row x h
  clear h x row
  intro row
  induction row with
  | nil => intro x _; simp [coef]
  | cons e row ih =>
    intro x h
    simp only [List.foldl_cons]
    rw [ih _ (fun e' he' => h e' (List.mem_cons_of_mem _ he'))]
    have hec := h e (by simp)
    simp only [coef, List.map_cons, List.sum_cons, upd]
    rw [if_neg (fun h' : c = e.1 => hec h'.symm)]
    by_cases hi : i = e.1
    · subst hi; simp; ring
    · rw [if_neg hi, if_neg (fun h' : e.1 = i => hi h'.symm)]; ring

theorem distribute_apply (S : I → Prop) (rows : List (I × List (I × F)))
    (hk : ∀ c ∈ rows, S c.1) (hn : ∀ c ∈ rows, ∀ e ∈ c.2, ¬ S e.1) : ∀ (x : I → F) (i : I),
    (rows.foldl distributeCol x) i = x i + (rows.map fun c => coef c.2 i * x c.1).sum := by
  induction rows with
  | nil => intro x i; simp
  | cons c rows ih =>
    intro x i
    have hc := hk c (by simp)
    have hcn := hn c (by simp)
    have hd : ∀ j, distributeCol x c j = x j + coef c.2 j * x c.1 :=
      fun j => distributeCol_apply c (fun e he e' => hcn e he (by rw [e']; exact hc)) x j
    have hz : ∀ j, S j → coef c.2 j = 0 := by
      intro j hj
      apply List.sum_eq_zero
      intro y hy
      simp only [List.mem_map] at hy
      obtain ⟨e, he, rfl⟩ := hy
      rw [if_neg]
      intro e'; exact hcn e he (by rw [e']; exact hj)
    simp only [List.foldl_cons, List.map_cons, List.sum_cons]
    rw [ih (fun c' hc' => hk c' (List.mem_cons_of_mem _ hc')) (fun c' hc' => hn c' (List.mem_cons_of_mem _ hc')),
      hd i]
    have : (rows.map fun c' => coef c'.2 i * distributeCol x c c'.1) = rows.map fun c' => coef c'.2 i * x c'.1 := by
      apply List.map_congr_left
      intro c' hc'
      rw [hd, hz _ (hk c' (List.mem_cons_of_mem _ hc'))]
      ring
    rw [this]; ring

theorem map_coef_perm (rows rows' : List (I × List (I × F)))
    (hf : List.Forall₂ (fun a b : I × List (I × F) => a.1 = b.1 ∧ a.2.Perm b.2) rows rows') (x : I → F) (i : I) :
    (rows.map fun col => coef col.2 i * x col.1) = rows'.map fun col => coef col.2 i * x col.1 := by
  induction hf with
  | nil => rfl
  | @cons a b _ _ hab _ ih =>
    simp only [List.map_cons, ih]
    have : coef a.2 i = coef b.2 i := by
      unfold coef
      exact (hab.2.map fun e : I × F => if e.1 = i then e.2 else 0).sum_eq
    rw [hab.1, this]

end Residual

end Verif.Constraints
