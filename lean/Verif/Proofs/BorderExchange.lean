import Verif.Spec.BorderExchange
import Mathlib.Algebra.BigOperators.Group.Finset.Basic
import Mathlib.Tactic.Ring
/-
Auxiliary lemmas for the exchange of matrix entries on the border.
-/
namespace Verif.BorderExchange

open Spec

/-! ### The cache -/

theorem clean_fold {v : View} : ∀ (gts : List Nat) (c : Cache), (∀ g ∈ gts, g < c.numTypes) →
    ∃ c', gts.foldlM (Cache.clean v) c = some c' ∧ c'.numTypes = c.numTypes ∧ c'.toIndex = c.toIndex ∧
      (∀ g, c'.size g = c.size g ∨ c'.size g = v.size g) ∧ ∀ g ∈ gts, c'.size g = v.size g := by
  intro gts
  induction gts with
  | nil => intro c _; exact ⟨c, rfl, rfl, rfl, fun _ => Or.inl rfl, fun g hg => by simp at hg⟩
  | cons a gts ih =>
    intro c h
    have ha : a < c.numTypes := h a (by simp)
    rw [List.foldlM_cons]
    unfold Cache.clean
    rw [if_pos ha]
    obtain ⟨c', h1, h2, h3, h4, h5⟩ := ih { c with
      size := fun g => if g = a then v.size a else c.size g
      flag := fun g i => if g = a then (if i < c.size g then c.flag g i else false) else c.flag g i
      toId := fun g => if g = a then fun _ => none else c.toId g } (fun g hg => h g (List.mem_cons_of_mem _ hg))
    refine ⟨c', h1, h2, h3, ?_, ?_⟩
    · intro g
      rcases h4 g with h | h
      · simp only at h
        split at h
        · next hg => right; rw [h, hg]
        · left; exact h
      · exact Or.inr h
    · intro g hg
      rcases List.mem_cons.1 hg with rfl | hg
      · rcases h4 g with h | h
        · simp only [if_true] at h; exact h
        · exact h
      · exact h5 g hg

theorem clean_codims {v : View} : ∀ (n : Nat) (c : Cache), (∀ k, k < n → ∀ g ∈ v.types (k + 1), g < c.numTypes) →
    ∃ c', (List.range n).foldlM (fun c k => if v.contains (k + 1) then (v.types (k + 1)).foldlM (Cache.clean v) c else some c) c = some c' ∧
      c'.numTypes = c.numTypes ∧ c'.toIndex = c.toIndex ∧ (∀ g, c'.size g = c.size g ∨ c'.size g = v.size g) ∧
      ∀ k, k < n → v.contains (k + 1) = true → ∀ g ∈ v.types (k + 1), c'.size g = v.size g := by
  intro n
  induction n with
  | zero => intro c _; exact ⟨c, rfl, rfl, rfl, fun _ => Or.inl rfl, fun k hk => by omega⟩
  | succ n ih =>
    intro c h
    obtain ⟨c1, h1, h2, h3, h4, h5⟩ := ih c (fun k hk => h k (by omega))
    rw [List.range_succ, List.foldlM_append, h1]
    simp only [List.foldlM_cons, List.foldlM_nil, Option.bind_eq_bind, Option.bind_some, Option.pure_def]
    by_cases hc : v.contains (n + 1) = true
    · rw [if_pos hc]
      obtain ⟨c2, k1, k2, k3, k4, k5⟩ := clean_fold (v := v) (v.types (n + 1)) c1 (fun g hg => by rw [h2]; exact h n (by omega) g hg)
      rw [k1]
      refine ⟨c2, rfl, by rw [k2, h2], by rw [k3, h3], ?_, ?_⟩
      · intro g
        rcases k4 g with h | h
        · rw [h]; exact h4 g
        · exact Or.inr h
      · intro k hk hck g hg
        rcases Nat.lt_succ_iff_lt_or_eq.1 hk with hk | rfl
        · rcases k4 g with h | h
          · rw [h]; exact h5 k hk hck g hg
          · exact h
        · exact k5 g hg
    · rw [if_neg hc]
      refine ⟨c1, rfl, h2, h3, h4, ?_⟩
      intro k hk hck g hg
      rcases Nat.lt_succ_iff_lt_or_eq.1 hk with hk | rfl
      · exact h5 k hk hck g hg
      · exact absurd hck hc

/-- The cache after the entities in `S`. -/
structure Entered (v : View) (S : Ent → Prop) (c : Cache) : Prop where
  num : c.numTypes = v.numTypes
  sizes : ∀ e, Relevant v e → c.size e.gt = v.size e.gt
  flags : ∀ e, S e → c.flag e.gt e.index = e.border
  ids : ∀ e, S e → e.border = true → c.toId e.gt e.index = some e.id ∧ c.toIndex e.id = some (e.gt, e.index)
  only : ∀ k i, c.toIndex k = some i → ∃ e, S e ∧ e.border = true ∧ e.id = k ∧ i = (e.gt, e.index)

theorem gt_lt {v : View} (hv : WellFormed v) {e : Ent} (he : Relevant v e) : e.gt < v.numTypes := by
  obtain ⟨c, h0, h1, h2, h3⟩ := he
  exact hv.known c h0 h1 _ (hv.types c h0 h1 h2 e h3)

theorem enter_entered {v : View} (hv : WellFormed v) {S : Ent → Prop} (hS : ∀ e, S e → Relevant v e) {c : Cache} (hc : Entered v S c) {e : Ent}
    (he : Relevant v e) : ∃ c', Cache.enter c e = some c' ∧ Entered v (fun x => S x ∨ x = e) c' := by
  unfold Cache.enter
  rw [if_pos ⟨by rw [hc.num]; exact gt_lt hv he, by rw [hc.sizes e he]; exact hv.inRange e he⟩]
  have hflag : ∀ x, S x ∨ x = e → (if x.gt = e.gt ∧ x.index = e.index then e.border else c.flag x.gt x.index) = x.border := by
    intro x hx
    split
    · next h =>
      rcases hx with hx | rfl
      · rw [hv.indices x e (hS x hx) he h.1 h.2]
      · rfl
    · next h =>
      rcases hx with hx | rfl
      · exact hc.flags x hx
      · exact absurd ⟨rfl, rfl⟩ h
  simp only
  by_cases hb : e.border = true
  · rw [if_pos hb]
    refine ⟨_, rfl, ⟨hc.num, hc.sizes, hflag, ?_, ?_⟩⟩
    · intro x hx hxb
      simp only
      constructor
      · split
        · next h =>
          rcases hx with hx | rfl
          · rw [hv.indices x e (hS x hx) he h.1 h.2]
          · rfl
        · next h =>
          rcases hx with hx | rfl
          · exact (hc.ids x hx hxb).1
          · exact absurd ⟨rfl, rfl⟩ h
      · split
        · next h =>
          rcases hx with hx | rfl
          · rw [hv.ids x e (hS x hx) he h]
          · rfl
        · next h =>
          rcases hx with hx | rfl
          · exact (hc.ids x hx hxb).2
          · exact absurd rfl h
    · intro k i hi
      simp only at hi
      split at hi
      · next h =>
        rw [Option.some.injEq] at hi
        exact ⟨e, Or.inr rfl, hb, h.symm, hi.symm⟩
      · obtain ⟨x, h1, h2⟩ := hc.only k i hi
        exact ⟨x, Or.inl h1, h2⟩
  · rw [if_neg hb]
    refine ⟨_, rfl, ⟨hc.num, hc.sizes, hflag, ?_, ?_⟩⟩
    · intro x hx hxb
      rcases hx with hx | rfl
      · exact hc.ids x hx hxb
      · exact absurd hxb hb
    · intro k i hi
      obtain ⟨x, h1, h2⟩ := hc.only k i hi
      exact ⟨x, Or.inl h1, h2⟩

theorem entered_congr {v : View} {S T : Ent → Prop} {c : Cache} (h : Entered v S c) (hST : ∀ e, S e ↔ T e) : Entered v T c := by
  have : S = T := funext fun e => propext (hST e)
  rw [← this]; exact h

theorem enter_fold {v : View} (hv : WellFormed v) : ∀ (es : List Ent) {S : Ent → Prop} (_ : ∀ e, S e → Relevant v e) {c : Cache} (_ : Entered v S c)
    (_ : ∀ e ∈ es, Relevant v e), ∃ c', es.foldlM Cache.enter c = some c' ∧ Entered v (fun x => S x ∨ x ∈ es) c' := by
  intro es
  induction es with
  | nil => intro S _ c hc _; exact ⟨c, rfl, entered_congr hc (fun e => by simp)⟩
  | cons a es ih =>
    intro S hS c hc h
    obtain ⟨c1, h1, h2⟩ := enter_entered hv hS hc (h a (by simp))
    rw [List.foldlM_cons, h1]
    obtain ⟨c2, k1, k2⟩ := ih (S := fun x => S x ∨ x = a) (by
      rintro e (he | rfl)
      · exact hS e he
      · exact h _ (by simp)) h2 (fun e he => h e (List.mem_cons_of_mem _ he))
    refine ⟨c2, k1, entered_congr k2 ?_⟩
    intro e
    simp only [List.mem_cons, or_assoc]

theorem create_entered {v : View} (hv : WellFormed v) : ∀ (n : Nat) (_ : n ≤ v.dim) {S : Ent → Prop} (_ : ∀ e, S e → Relevant v e) {c : Cache}
    (_ : Entered v S c), ∃ c', Cache.create v n c = some c' ∧
      Entered v (fun e => S e ∨ ∃ k, 0 < k ∧ k ≤ n ∧ v.contains k = true ∧ e ∈ v.ents k) c' := by
  intro n
  induction n with
  | zero =>
    intro _ S _ c hc
    refine ⟨c, rfl, entered_congr hc ?_⟩
    intro e
    constructor
    · exact Or.inl
    · rintro (h | ⟨k, h1, h2, _⟩)
      · exact h
      · omega
  | succ n ih =>
    intro hn S hS c hc
    unfold Cache.create
    by_cases hcn : v.contains (n + 1) = true
    · rw [if_pos hcn]
      have hrel : ∀ e ∈ v.ents (n + 1), Relevant v e := fun e he => ⟨n + 1, by omega, hn, hcn, he⟩
      obtain ⟨c1, h1, h2⟩ := enter_fold hv (v.ents (n + 1)) hS hc hrel
      rw [h1]
      obtain ⟨c2, k1, k2⟩ := ih (by omega) (S := fun x => S x ∨ x ∈ v.ents (n + 1)) (by
        rintro e (he | he)
        · exact hS e he
        · exact hrel e he) h2
      refine ⟨c2, k1, entered_congr k2 ?_⟩
      intro e
      constructor
      · rintro ((h | h) | ⟨k, h1, h2, h3⟩)
        · exact Or.inl h
        · exact Or.inr ⟨n + 1, by omega, by omega, hcn, h⟩
        · exact Or.inr ⟨k, h1, by omega, h3⟩
      · rintro (h | ⟨k, h1, h2, h3, h4⟩)
        · exact Or.inl (Or.inl h)
        · rcases Nat.lt_succ_iff_lt_or_eq.1 (Nat.lt_succ_of_le h2) with hk | rfl
          · exact Or.inr ⟨k, h1, by omega, h3, h4⟩
          · exact Or.inl (Or.inr h4)
    · rw [if_neg hcn]
      obtain ⟨c2, k1, k2⟩ := ih (by omega) hS hc
      refine ⟨c2, k1, entered_congr k2 ?_⟩
      intro e
      constructor
      · rintro (h | ⟨k, h1, h2, h3⟩)
        · exact Or.inl h
        · exact Or.inr ⟨k, h1, by omega, h3⟩
      · rintro (h | ⟨k, h1, h2, h3, h4⟩)
        · exact Or.inl h
        · rcases Nat.lt_succ_iff_lt_or_eq.1 (Nat.lt_succ_of_le h2) with hk | rfl
          · exact Or.inr ⟨k, h1, by omega, h3, h4⟩
          · exact absurd h3 hcn

theorem update_entered {v : View} (hv : WellFormed v) : ∃ c, Cache.update v Cache.empty = some c ∧ Entered v (Relevant v) c := by
  unfold Cache.update
  obtain ⟨c1, h1, h2, h3, h4, h5⟩ := clean_codims (v := v) v.dim { Cache.empty with
    numTypes := v.numTypes
    size := fun g => if g < Cache.empty.numTypes then Cache.empty.size g else 0
    toId := fun g => if g < Cache.empty.numTypes then Cache.empty.toId g else fun _ => none }
    (fun k hk g hg => hv.known (k + 1) (by omega) (by omega) g hg)
  simp only [h1, Option.bind_eq_bind, Option.bind_some]
  have hc1 : Entered v (fun _ => False) c1 := by
    refine ⟨h2, ?_, fun _ h => h.elim, fun _ h => h.elim, ?_⟩
    · rintro e ⟨c, k0, k1, k2, k3⟩
      have := h5 (c - 1) (by omega) (by rw [Nat.sub_add_cancel k0]; exact k2) e.gt (by rw [Nat.sub_add_cancel k0]; exact hv.types c k0 k1 k2 e k3)
      exact this
    · intro k i h
      rw [h3] at h
      cases h
  obtain ⟨c2, k1, k2⟩ := create_entered hv v.dim (le_refl _) (S := fun _ => False) (fun _ h => h.elim) hc1
  refine ⟨c2, k1, entered_congr k2 ?_⟩
  intro e
  simp only [false_or]
  rfl

theorem entered_unique {v : View} (hv : WellFormed v) {c : Cache} (h : Cache.update v Cache.empty = some c) : Entered v (Relevant v) c := by
  obtain ⟨c', h1, h2⟩ := update_entered hv
  rw [h1, Option.some.injEq] at h
  rw [← h]; exact h2

theorem isBorder_of {v : View} (hv : WellFormed v) {c : Cache} (hc : Entered v (Relevant v) c) {e : Ent} (he : Relevant v e) :
    c.isBorder e.gt e.index = some e.border := by
  unfold Cache.isBorder
  rw [if_pos ⟨by rw [hc.num]; exact gt_lt hv he, by rw [hc.sizes e he]; exact hv.inRange e he⟩, hc.flags e he]

theorem id_of {v : View} (hv : WellFormed v) {c : Cache} (hc : Entered v (Relevant v) c) {e : Ent} (he : Relevant v e) (hb : e.border = true) :
    c.id e.gt e.index = some e.id := by
  unfold Cache.id
  rw [if_pos (by rw [hc.num]; exact gt_lt hv he), (hc.ids e he hb).1]

theorem findIndex_iff {v : View} {c : Cache} (hc : Entered v (Relevant v) c) {k : Nat} {i : Nat × Nat} :
    c.findIndex k = some i ↔ ∃ e, Relevant v e ∧ e.border = true ∧ e.id = k ∧ i = (e.gt, e.index) := by
  constructor
  · exact hc.only k i
  · rintro ⟨e, h1, h2, rfl, rfl⟩
    exact (hc.ids e h1 h2).2

theorem at_iff {v : View} {c : Cache} (hc : Entered v (Relevant v) c) {I : Nat × Nat} {d : Dof} :
    At v I d ↔ ∃ e, c.findIndex I.1 = some e ∧ d = ⟨e.1, e.2, I.2⟩ := by
  constructor
  · rintro ⟨e, h1, h2, h3, h4⟩
    exact ⟨(e.gt, e.index), (findIndex_iff hc).2 ⟨e, h1, h2, h3, rfl⟩, h4⟩
  · rintro ⟨i, h1, h2⟩
    obtain ⟨e, k1, k2, k3, rfl⟩ := (findIndex_iff hc).1 h1
    exact ⟨e, k1, k2, k3, h2⟩

theorem at_fun {v : View} (hv : WellFormed v) {I : Nat × Nat} {d d' : Dof} (h : At v I d) (h' : At v I d') : d = d' := by
  obtain ⟨e, h1, _, h3, rfl⟩ := h
  obtain ⟨e', k1, _, k3, rfl⟩ := h'
  rw [hv.ids e e' h1 k1 (by rw [h3, k3])]

theorem at_inj {v : View} (hv : WellFormed v) {I I' : Nat × Nat} {d : Dof} (h : At v I d) (h' : At v I' d) : I = I' := by
  obtain ⟨e, h1, _, h3, h4⟩ := h
  obtain ⟨e', k1, _, k3, k4⟩ := h'
  rw [h4, Dof.mk.injEq] at k4
  have := hv.indices e e' h1 k1 k4.1 k4.2.1
  subst this
  exact Prod.ext (by rw [← h3, k3]) k4.2.2

/-! ### Border patterns -/

/-- The set of columns of a row contains `x`. -/
def Mem (b : BorderPattern) (d : Dof) (x : Nat × Nat) : Prop := ∃ s, b d = some s ∧ x ∈ s

/-- Columns are stored once. -/
def Once (b : BorderPattern) : Prop := ∀ d s, b d = some s → s.Nodup

theorem mem_insert {b : BorderPattern} {di d : Dof} {y x : Nat × Nat} : Mem (b.insert di y) d x ↔ Mem b d x ∨ (d = di ∧ x = y) := by
  unfold Mem BorderPattern.insert
  by_cases hd : d = di
  · subst hd
    rcases hb : b d with _ | s
    · simp
    · by_cases hy : y ∈ s
      · simp only [hy, if_true, Option.some.injEq, exists_eq_left', true_and]
        constructor
        · exact Or.inl
        · rintro (h | rfl)
          · exact h
          · exact hy
      · simp [hy]
  · simp [hd]

theorem once_insert {b : BorderPattern} (h : Once b) (di : Dof) (y : Nat × Nat) : Once (b.insert di y) := by
  intro d s hs
  unfold BorderPattern.insert at hs
  split at hs
  · rcases hb : b di with _ | s'
    · rw [hb] at hs
      simp only [Option.some.injEq] at hs
      rw [← hs]; simp
    · rw [hb] at hs
      simp only [Option.some.injEq] at hs
      have := h di s' hb
      rw [← hs]
      split
      · exact this
      · next hy =>
        rw [List.nodup_append]
        exact ⟨this, by simp, by rintro a ha _ hb rfl; simp at hb; exact hy (hb ▸ ha)⟩
  · exact h d s hs

/-- What a link contributes. -/
def Contributes (v : View) (l : Link) (d : Dof) (x : Nat × Nat) : Prop :=
  l.rowConstrained = false ∧ l.colConstrained = false ∧ l.row = d ∧ (∃ k, At v (k, d.tree) d) ∧ At v x l.col

theorem isDof_at {v : View} {dofs : Nat → Nat → List Nat} {d : Dof} (h : IsDof v dofs d) {e : Ent} (he : Relevant v e) (h1 : d.gt = e.gt)
    (h2 : d.index = e.index) (hb : e.border = true) : At v (e.id, d.tree) d := ⟨e, he, hb, rfl, by rw [← h1, ← h2]⟩

theorem addEntry_spec {v : View} (hv : WellFormed v) {c : Cache} (hc : Entered v (Relevant v) c) {dofsV dofsU : Nat → Nat → List Nat} {l : Link}
    (hr : IsDof v dofsV l.row) (hcol : IsDof v dofsU l.col) (b : BorderPattern) :
    ∃ b', addEntry c b l = some b' ∧ (∀ d x, Mem b' d x ↔ Mem b d x ∨ Contributes v l d x) ∧ (Once b → Once b') := by
  unfold addEntry
  by_cases hcon : (l.rowConstrained || l.colConstrained) = true
  · rw [if_pos hcon]
    refine ⟨b, rfl, ?_, id⟩
    intro d x
    constructor
    · exact Or.inl
    · rintro (h | ⟨h1, h2, _⟩)
      · exact h
      · rw [h1, h2] at hcon; cases hcon
  · rw [if_neg hcon]
    have hcon' : l.rowConstrained = false ∧ l.colConstrained = false := by
      rw [Bool.or_eq_true, not_or] at hcon
      exact ⟨Bool.eq_false_iff.2 hcon.1, Bool.eq_false_iff.2 hcon.2⟩
    obtain ⟨e, he, e1, e2, _⟩ := id hr
    obtain ⟨e', he', e1', e2', _⟩ := id hcol
    rw [e1, e2, isBorder_of hv hc he]
    simp only [Option.bind_eq_bind, Option.bind_some]
    by_cases hb : e.border = true
    · rw [if_neg (by rw [hb]; decide), e1', e2', isBorder_of hv hc he']
      simp only [Option.bind_some]
      by_cases hb' : e'.border = true
      · rw [if_neg (by rw [hb']; decide), id_of hv hc he' hb']
        refine ⟨_, rfl, ?_, fun h => once_insert h _ _⟩
        intro d x
        rw [mem_insert]
        refine or_congr Iff.rfl ?_
        constructor
        · rintro ⟨rfl, rfl⟩
          exact ⟨hcon'.1, hcon'.2, rfl, ⟨e.id, isDof_at hr he e1 e2 hb⟩, isDof_at hcol he' e1' e2' hb'⟩
        · rintro ⟨_, _, rfl, _, hat⟩
          exact ⟨rfl, at_inj hv hat (isDof_at hcol he' e1' e2' hb')⟩
      · rw [if_pos (Bool.eq_false_iff.2 hb')]
        refine ⟨b, rfl, ?_, id⟩
        intro d x
        constructor
        · exact Or.inl
        · rintro (h | ⟨_, _, _, _, ⟨f, f1, f2, f3, f4⟩⟩)
          · exact h
          · refine absurd ?_ hb'
            rw [← hv.indices f e' f1 he' (by rw [← e1', f4]) (by rw [← e2', f4])]; exact f2
    · rw [if_pos (Bool.eq_false_iff.2 hb)]
      refine ⟨b, rfl, ?_, id⟩
      intro d x
      constructor
      · exact Or.inl
      · rintro (h | ⟨_, _, rfl, ⟨k, ⟨f, f1, f2, f3, f4⟩⟩, _⟩)
        · exact h
        · refine absurd ?_ hb
          have g1 : f.gt = e.gt := by rw [← e1, f4]
          have g2 : f.index = e.index := by rw [← e2, f4]
          rw [← hv.indices f e f1 he g1 g2]; exact f2

theorem addEntries_spec {v : View} (hv : WellFormed v) {c : Cache} (hc : Entered v (Relevant v) c) {dofsV dofsU : Nat → Nat → List Nat} :
    ∀ (ls : List Link) (_ : ∀ l ∈ ls, IsDof v dofsV l.row ∧ IsDof v dofsU l.col) (b : BorderPattern),
    ∃ b', addEntries c b ls = some b' ∧ (∀ d x, Mem b' d x ↔ Mem b d x ∨ ∃ l ∈ ls, Contributes v l d x) ∧ (Once b → Once b') := by
  unfold addEntries
  intro ls
  induction ls with
  | nil => intro _ b; exact ⟨b, rfl, fun d x => by simp, id⟩
  | cons a ls ih =>
    intro h b
    obtain ⟨b1, h1, h2, h3⟩ := addEntry_spec hv hc (h a (by simp)).1 (h a (by simp)).2 b
    obtain ⟨b2, k1, k2, k3⟩ := ih (fun l hl => h l (List.mem_cons_of_mem _ hl)) b1
    rw [List.foldlM_cons, h1]
    refine ⟨b2, k1, ?_, fun h => k3 (h3 h)⟩
    intro d x
    rw [k2, h2, or_assoc]
    simp only [List.mem_cons, exists_eq_or_imp]

theorem allEntries_spec {v : View} (hv : WellFormed v) {c : Cache} (hc : Entered v (Relevant v) c) {dofsV dofsU : Nat → Nat → List Nat} :
    ∀ (links : List (List Link)) (_ : ∀ ls ∈ links, ∀ l ∈ ls, IsDof v dofsV l.row ∧ IsDof v dofsU l.col) (b : BorderPattern),
    ∃ b', links.foldlM (addEntries c) b = some b' ∧ (∀ d x, Mem b' d x ↔ Mem b d x ∨ ∃ ls ∈ links, ∃ l ∈ ls, Contributes v l d x) ∧
      (Once b → Once b') := by
  intro links
  induction links with
  | nil => intro _ b; exact ⟨b, rfl, fun d x => by simp, id⟩
  | cons a ls ih =>
    intro h b
    obtain ⟨b1, h1, h2, h3⟩ := addEntries_spec hv hc a (h a (by simp)) b
    obtain ⟨b2, k1, k2, k3⟩ := ih (fun l hl => h l (List.mem_cons_of_mem _ hl)) b1
    rw [List.foldlM_cons, h1]
    refine ⟨b2, k1, ?_, fun h => k3 (h3 h)⟩
    intro d x
    rw [k2, h2, or_assoc]
    simp only [List.mem_cons, exists_eq_or_imp]

/-- The border pattern of a process. -/
structure Repr (v : View) (links : List (List Link)) (b : BorderPattern) : Prop where
  once : Once b
  mem : ∀ d x, Mem b d x ↔ ∃ ls ∈ links, ∃ l ∈ ls, Contributes v l d x

theorem border_repr {v : View} (hv : WellFormed v) {c : Cache} (hc : Entered v (Relevant v) c) {dofsV dofsU : Nat → Nat → List Nat}
    {links : List (List Link)} (h : ∀ ls ∈ links, ∀ l ∈ ls, IsDof v dofsV l.row ∧ IsDof v dofsU l.col) :
    ∃ b, links.foldlM (addEntries c) (fun _ => none) = some b ∧ Repr v links b := by
  obtain ⟨b, h1, h2, h3⟩ := allEntries_spec hv hc links h fun _ => none
  refine ⟨b, h1, h3 (fun d s hs => by cases hs), ?_⟩
  intro d x
  rw [h2]
  constructor
  · rintro (⟨s, hs, _⟩ | h)
    · cases hs
    · exact h
  · exact Or.inr

theorem linked_iff {v : View} (hv : WellFormed v) {links : List (List Link)} {b : BorderPattern} (hb : Repr v links b) {I J : Nat × Nat} {d : Dof}
    (hd : At v I d) : Linked v links I J ↔ Mem b d J := by
  rw [hb.mem]
  have htree : d.tree = I.2 := by obtain ⟨e, _, _, _, rfl⟩ := hd; rfl
  constructor
  · rintro ⟨ls, hls, l, hl, h1, h2, h3, h4⟩
    have := at_fun hv h3 hd
    refine ⟨ls, hls, l, hl, h1, h2, this, ⟨I.1, ?_⟩, h4⟩
    rw [htree]; exact hd
  · rintro ⟨ls, hls, l, hl, h1, h2, h3, _, h4⟩
    exact ⟨ls, hls, l, hl, h1, h2, by rw [h3]; exact hd, h4⟩

/-! ### Messages -/

theorem gather_cons (b : BorderPattern) (gt i t : Nat) (ts : List Nat) :
    gatherPattern b gt i (t :: ts) = gatherPattern b gt i [t] ++ gatherPattern b gt i ts := by
  unfold gatherPattern
  simp [List.flatMap_cons]

theorem gather_none {b : BorderPattern} {gt i t : Nat} (h : b ⟨gt, i, t⟩ = none) : gatherPattern b gt i [t] = [] := by
  unfold gatherPattern
  simp [h]

theorem gather_some {b : BorderPattern} {gt i t : Nat} {s : List (Nat × Nat)} (h : b ⟨gt, i, t⟩ = some s) :
    gatherPattern b gt i [t] = s.map fun x => (t, x) := by
  unfold gatherPattern
  simp [h]

theorem size_eq (b : BorderPattern) (gt i : Nat) (trees : List Nat) : size b gt i trees = (gatherPattern b gt i trees).length := by
  have key : ∀ f : Nat → Nat → Nat, (∀ n t, f n t = n + (gatherPattern b gt i [t]).length) → ∀ (ts : List Nat) (n : Nat),
      ts.foldl f n = n + (gatherPattern b gt i ts).length := by
    intro f hf ts
    induction ts with
    | nil => intro n; rfl
    | cons t ts ih =>
      intro n
      rw [List.foldl_cons, ih, hf, gather_cons b gt i t ts, List.length_append]
      omega
  unfold size
  rw [key _ _ trees 0, Nat.zero_add]
  intro n t
  rcases hb : b ⟨gt, i, t⟩ with _ | s
  · simp [hb, gather_none hb]
  · simp [hb, gather_some hb]

theorem mem_gather {b : BorderPattern} {gt i : Nat} {trees : List Nat} {x : Nat × Nat × Nat} :
    x ∈ gatherPattern b gt i trees ↔ x.1 ∈ trees ∧ Mem b ⟨gt, i, x.1⟩ x.2 := by
  unfold gatherPattern Mem
  rw [List.mem_flatMap]
  constructor
  · rintro ⟨t, ht, hx⟩
    rcases hb : b ⟨gt, i, t⟩ with _ | s
    · rw [hb] at hx; simp at hx
    · rw [hb] at hx
      simp only [List.mem_map] at hx
      obtain ⟨y, hy, rfl⟩ := hx
      exact ⟨ht, s, hb, hy⟩
  · rintro ⟨ht, s, hs, hx⟩
    refine ⟨x.1, ht, ?_⟩
    rw [hs]
    exact List.mem_map.2 ⟨x.2, hx, rfl⟩

theorem nodup_gather {b : BorderPattern} (hb : Once b) (gt i : Nat) {trees : List Nat} (ht : trees.Nodup) : (gatherPattern b gt i trees).Nodup := by
  induction trees with
  | nil => simp [gatherPattern]
  | cons t ts ih =>
    rw [List.nodup_cons] at ht
    rw [gather_cons, List.nodup_append]
    refine ⟨?_, ih ht.2, ?_⟩
    · rcases hs : b ⟨gt, i, t⟩ with _ | s
      · simp [gather_none hs]
      · rw [gather_some hs]
        exact (hb _ s hs).map (fun x y h => (Prod.ext_iff.1 h).2)
    · intro x hx y hy hxy
      subst hxy
      rw [mem_gather] at hx hy
      have : x.1 = t := by simpa using hx.1
      exact ht.1 (this ▸ hy.1)

theorem readItems_all {A : Type} (l : List A) {n : Nat} (h : n = l.length) : readItems n l = some l := by
  unfold readItems
  rw [if_pos (by omega), h, List.take_length]

/-- The items of a message. -/
def itemsOf (M : Machine) (b : Nat → BorderPattern) (m : Message) : List (Nat × Nat × Nat) :=
  gatherPattern (b m.src) m.sent.1 m.sent.2 (M.dofs m.src m.sent.1 m.sent.2)

/-- Where an item goes. -/
def target (M : Machine) (mapR mapC : Nat → Dof → Nat) (m : Message) (x : Nat × Nat × Nat) : Option (Nat × Nat) :=
  ((M.cache m.dst).findIndex x.2.1).map fun e => (mapR m.dst ⟨m.received.1, m.received.2, x.1⟩, mapC m.dst ⟨e.1, e.2, x.2.2⟩)

theorem scatterLinks (M : Machine) (m : Message) : ∀ (items : List (Nat × Nat × Nat)) (P : Nat → Nat → Bool) (r c : Nat),
    items.foldl (scatterLink M m) P r c = true ↔ P r c = true ∨ ∃ x ∈ items, target M M.mapV M.mapU m x = some (r, c) := by
  intro items
  induction items with
  | nil => intro P r c; simp
  | cons a items ih =>
    intro P r c
    rw [List.foldl_cons, ih]
    simp only [List.mem_cons, exists_eq_or_imp, ← or_assoc]
    refine or_congr ?_ Iff.rfl
    unfold scatterLink target
    rcases (M.cache m.dst).findIndex a.2.1 with _ | e
    · simp
    · simp only [Bool.or_eq_true, Bool.and_eq_true, beq_iff_eq, Option.map_some, Option.some.injEq, Prod.mk.injEq]
      refine or_congr Iff.rfl ?_
      constructor
      · rintro ⟨h1, h2⟩; exact ⟨h1.symm, h2.symm⟩
      · rintro ⟨h1, h2⟩; exact ⟨h1.symm, h2.symm⟩

theorem extendPattern_spec (M : Machine) (b : Nat → BorderPattern) : ∀ (msgs : List Message) (P : Nat → Nat → Nat → Bool),
    ∃ P', extendPattern M b msgs P = some P' ∧ ∀ q r c, P' q r c = true ↔
      P q r c = true ∨ ∃ m ∈ msgs, m.dst = q ∧ ∃ x ∈ itemsOf M b m, target M M.mapV M.mapU m x = some (r, c) := by
  unfold extendPattern
  intro msgs
  induction msgs with
  | nil => intro P; exact ⟨P, rfl, fun q r c => by simp⟩
  | cons a msgs ih =>
    intro P
    have h1 : deliverPattern M b P a = some fun q => if q = a.dst then (itemsOf M b a).foldl (scatterLink M a) (P q) else P q := by
      unfold deliverPattern
      simp only
      rw [readItems_all _ (size_eq _ _ _ _)]
      rfl
    rw [List.foldlM_cons, h1]
    obtain ⟨P', h2, h3⟩ := ih fun q => if q = a.dst then (itemsOf M b a).foldl (scatterLink M a) (P q) else P q
    refine ⟨P', h2, ?_⟩
    intro q r c
    rw [h3]
    simp only [List.mem_cons, exists_eq_or_imp, ← or_assoc]
    refine or_congr ?_ Iff.rfl
    by_cases hq : q = a.dst
    · rw [if_pos hq, scatterLinks]
      simp [hq]
    · rw [if_neg hq]
      constructor
      · exact Or.inl
      · rintro (h | ⟨h, _⟩)
        · exact h
        · exact absurd h.symm hq

/-! ### Entries -/

section
variable {K : Type} [AddCommMonoid K]

/-- The entry that belongs to an item. -/
def valueOf (c : Cache) (mapV mapU : Dof → Nat) (A : Mat K) (gt i : Nat) (x : Nat × Nat × Nat) : K :=
  A.val (mapV ⟨gt, i, x.1⟩) (match c.findIndex x.2.1 with
    | some e => mapU ⟨e.1, e.2, x.2.2⟩
    | none => 0)

theorem gatherRow_spec {c : Cache} {mapV mapU : Dof → Nat} {A : Mat K} {row : Dof} : ∀ (s : List (Nat × Nat))
    (_ : ∀ x ∈ s, ∃ e, c.findIndex x.1 = some e ∧ A.pattern (mapV row) (mapU ⟨e.1, e.2, x.2⟩) = true),
    gatherRow c mapV mapU A row s = some (s.map fun x => (row.tree, x, valueOf c mapV mapU A row.gt row.index (row.tree, x))) := by
  intro s
  induction s with
  | nil => intro _; rfl
  | cons a s ih =>
    intro h
    obtain ⟨e, h1, h2⟩ := h a (by simp)
    unfold gatherRow
    rw [h1]
    simp only [Option.bind_eq_bind, Option.bind_some]
    rw [ih (fun x hx => h x (List.mem_cons_of_mem _ hx))]
    simp only [Mat.get, h2, if_true, Option.bind_some, List.map_cons, valueOf, h1]

theorem gatherData_spec {c : Cache} {b : BorderPattern} {mapV mapU : Dof → Nat} {A : Mat K} {gt i : Nat} : ∀ (trees : List Nat)
    (_ : ∀ x ∈ gatherPattern b gt i trees, ∃ e, c.findIndex x.2.1 = some e ∧ A.pattern (mapV ⟨gt, i, x.1⟩) (mapU ⟨e.1, e.2, x.2.2⟩) = true),
    gatherData c b mapV mapU A gt i trees = some ((gatherPattern b gt i trees).map fun x => (x.1, x.2, valueOf c mapV mapU A gt i x)) := by
  intro trees
  induction trees with
  | nil => intro _; rfl
  | cons t ts ih =>
    intro h
    rw [gather_cons] at h ⊢
    unfold gatherData
    rw [ih (fun x hx => h x (List.mem_append.2 (Or.inr hx)))]
    rcases hs : b ⟨gt, i, t⟩ with _ | s
    · simp [gather_none hs]
    · rw [gather_some hs] at h ⊢
      simp only
      rw [gatherRow_spec s (fun x hx => h (t, x) (List.mem_append.2 (Or.inl (List.mem_map.2 ⟨x, hx, rfl⟩))))]
      simp only [Option.bind_eq_bind, Option.bind_some, List.map_append, List.map_map]
      rfl

theorem scatterEntries_spec {M : Machine} {mapR mapC : Nat → Dof → Nat} {m : Message} : ∀ (items : List (Nat × (Nat × Nat) × K)) (A : Mat K)
    (_ : ∀ x ∈ items, ∀ r c, target M mapR mapC m (x.1, x.2.1) = some (r, c) → A.pattern r c = true),
    ∃ A', items.foldlM (scatterEntry M mapR mapC m) A = some A' ∧ A'.pattern = A.pattern ∧
      ∀ r c, A'.val r c = A.val r c + (items.map fun x => if target M mapR mapC m (x.1, x.2.1) = some (r, c) then x.2.2 else 0).sum := by
  intro items
  induction items with
  | nil => intro A _; exact ⟨A, rfl, rfl, fun r c => by simp⟩
  | cons a items ih =>
    intro A h
    rw [List.foldlM_cons]
    unfold scatterEntry
    rcases hf : (M.cache m.dst).findIndex a.2.1.1 with _ | e
    · obtain ⟨A', h1, h2, h3⟩ := ih A (fun x hx => h x (List.mem_cons_of_mem _ hx))
      refine ⟨A', h1, h2, ?_⟩
      intro r c
      rw [h3, List.map_cons, List.sum_cons, if_neg, zero_add]
      simp [target, hf]
    · have ht : target M mapR mapC m (a.1, a.2.1) =
          some (mapR m.dst ⟨m.received.1, m.received.2, a.1⟩, mapC m.dst ⟨e.1, e.2, a.2.1.2⟩) := by simp [target, hf]
      have hp := h a (by simp) _ _ ht
      simp only [Mat.add, hp, if_true]
      obtain ⟨A', h1, h2, h3⟩ := ih { A with val := fun i' j' => if i' = mapR m.dst ⟨m.received.1, m.received.2, a.1⟩ ∧ j' = mapC m.dst ⟨e.1, e.2, a.2.1.2⟩ then A.val i' j' + a.2.2 else A.val i' j' } (fun x hx => h x (List.mem_cons_of_mem _ hx))
      refine ⟨A', h1, h2, ?_⟩
      intro r c
      rw [h3, List.map_cons, List.sum_cons, ht]
      simp only [Option.some.injEq, Prod.mk.injEq]
      by_cases hrc : r = mapR m.dst ⟨m.received.1, m.received.2, a.1⟩ ∧ c = mapC m.dst ⟨e.1, e.2, a.2.1.2⟩
      · rw [if_pos hrc, if_pos ⟨hrc.1.symm, hrc.2.symm⟩, add_assoc]
      · rw [if_neg hrc, if_neg (fun h => hrc ⟨h.1.symm, h.2.symm⟩), zero_add]

/-- What the message `m` adds to the entry `(r,c)` of process `q`. -/
def addition (M : Machine) (mapR mapC : Nat → Dof → Nat) (b : Nat → BorderPattern) (A : Nat → Mat K) (q r c : Nat) (m : Message) : K :=
  if m.dst = q then ((itemsOf M b m).map fun x => if target M mapR mapC m x = some (r, c) then
    valueOf (M.cache m.src) (M.mapV m.src) (M.mapU m.src) (A m.src) m.sent.1 m.sent.2 x else 0).sum else 0

theorem deliverEntries_fold {M : Machine} {mapR mapC : Nat → Dof → Nat} {b : Nat → BorderPattern} {A : Nat → Mat K} : ∀ (msgs : List Message)
    (S : Nat → Mat K) (_ : ∀ q, (S q).pattern = (A q).pattern)
    (_ : ∀ m ∈ msgs, ∀ x ∈ itemsOf M b m, ∃ e, (M.cache m.src).findIndex x.2.1 = some e ∧
      (A m.src).pattern (M.mapV m.src ⟨m.sent.1, m.sent.2, x.1⟩) (M.mapU m.src ⟨e.1, e.2, x.2.2⟩) = true)
    (_ : ∀ m ∈ msgs, ∀ x ∈ itemsOf M b m, ∀ r c, target M mapR mapC m x = some (r, c) → (A m.dst).pattern r c = true),
    ∃ S', msgs.foldlM (deliverEntries M mapR mapC b A) S = some S' ∧ (∀ q, (S' q).pattern = (A q).pattern) ∧
      ∀ q r c, (S' q).val r c = (S q).val r c + (msgs.map (addition M mapR mapC b A q r c)).sum := by
  intro msgs
  induction msgs with
  | nil => intro S hS _ _; exact ⟨S, rfl, hS, fun q r c => by simp⟩
  | cons a msgs ih =>
    intro S hS hg ht
    rw [List.foldlM_cons]
    have hdata := gatherData_spec (c := M.cache a.src) (b := b a.src) (mapV := M.mapV a.src) (mapU := M.mapU a.src) (A := A a.src) (gt := a.sent.1)
      (i := a.sent.2) (M.dofs a.src a.sent.1 a.sent.2) (hg a (by simp))
    obtain ⟨B, h1, h2, h3⟩ := scatterEntries_spec (M := M) (mapR := mapR) (mapC := mapC) (m := a)
      ((itemsOf M b a).map fun x => (x.1, x.2, valueOf (M.cache a.src) (M.mapV a.src) (M.mapU a.src) (A a.src) a.sent.1 a.sent.2 x)) (S a.dst) (by
        intro x hx r c hrc
        rw [List.mem_map] at hx
        obtain ⟨y, hy, rfl⟩ := hx
        rw [hS]
        exact ht a (by simp) y hy r c hrc)
    have hdel : deliverEntries M mapR mapC b A S a = some fun q => if q = a.dst then B else S q := by
      unfold deliverEntries
      simp only
      rw [hdata]
      simp only [Option.bind_eq_bind, Option.bind_some]
      rw [readItems_all _ (by rw [size_eq, List.length_map])]
      simp only [Option.bind_some]
      unfold itemsOf at h1
      rw [h1]
      rfl
    rw [hdel]
    obtain ⟨S', k1, k2, k3⟩ := ih (fun q => if q = a.dst then B else S q) (by
      intro q
      by_cases hq : q = a.dst
      · simp only [hq, if_true, h2, hS]
      · simp only [hq, if_false, hS]) (fun m hm => hg m (List.mem_cons_of_mem _ hm)) (fun m hm => ht m (List.mem_cons_of_mem _ hm))
    refine ⟨S', k1, k2, ?_⟩
    intro q r c
    rw [k3, List.map_cons, List.sum_cons, ← add_assoc]
    congr 1
    unfold addition
    by_cases hq : q = a.dst
    · subst hq
      simp only [if_true, h3, List.map_map]
      rfl
    · rw [if_neg hq, if_neg (fun h => hq h.symm), add_zero]

theorem sum_single {A : Type} [DecidableEq A] {l : List A} (hl : l.Nodup) (a : A) (f : A → K) :
    (l.map fun x => if x = a then f x else 0).sum = if a ∈ l then f a else 0 := by
  induction l with
  | nil => simp
  | cons x l ih =>
    rw [List.nodup_cons] at hl
    rw [List.map_cons, List.sum_cons, ih hl.2]
    by_cases hx : x = a
    · subst hx
      simp [hl.1]
    · simp [hx, Ne.symm hx]
end

end Verif.BorderExchange
