import Verif.Spec.Transfer
import Mathlib.Algebra.BigOperators.Group.List.Basic
import Mathlib.Algebra.BigOperators.Ring.List
import Mathlib.Algebra.CharZero.Defs
import Mathlib.Data.List.GetD
import Mathlib.Tactic.Ring
import Mathlib.Tactic.FieldSimp
/-
Helper lemmas for the transfer of solutions.
-/
namespace Verif.Transfer

open Spec

variable {E X D K : Type}

/-! ### The replay -/

section
variable [DecidableEq D]

theorem addLocal_apply {R : Type} [AddMonoid R] (dofs : List D) (v : List R) (u : D → R) (d : D) :
    addLocal u dofs v d = u d + (((dofs.zip v).filterMap fun x => if x.1 = d then some x.2 else none)).sum := by
  unfold addLocal
  generalize dofs.zip v = l
  induction l generalizing u with
  | nil => simp
  | cons p l ih =>
    rw [List.foldl_cons, ih]
    by_cases h : p.1 = d
    · rw [List.filterMap_cons_some (b := p.2) (by simp [h])]
      simp [h, add_assoc]
    · rw [List.filterMap_cons_none (by simp [h])]
      rw [if_neg (fun h' => h h'.symm)]

theorem count_apply (dofs : List D) (v : List K) (h : v.length = dofs.length) (d : D) :
    (((dofs.zip (List.replicate dofs.length 1)).filterMap fun x : D × Nat => if x.1 = d then some x.2 else none)).sum =
      ((dofs.zip v).filterMap fun x => if x.1 = d then some x.2 else none).length := by
  induction dofs generalizing v with
  | nil => rfl
  | cons a dofs ih =>
    cases v with
    | nil => simp at h
    | cons y v =>
      rw [List.length_cons, List.replicate_succ, List.zip_cons_cons, List.zip_cons_cons]
      by_cases hd : a = d
      · rw [List.filterMap_cons_some (b := 1) (by simp [hd]), List.filterMap_cons_some (b := y) (by simp [hd]), List.sum_cons,
          ih v (by simpa using h), List.length_cons, Nat.add_comm]
      · rw [List.filterMap_cons_none (by simp [hd]), List.filterMap_cons_none (by simp [hd])]
        exact ih v (by simpa using h)

end

theorem findData_some {m : TransferMap E K} {chain : List E} {a : E} {v : List K} :
    findData m chain = some (a, v) ↔ Nearest m chain a v := by
  induction chain with
  | nil => simp [findData, Nearest]
  | cons b chain ih =>
    rw [findData]
    cases hb : m b with
    | some w =>
      constructor
      · intro h
        simp only [Option.some.injEq, Prod.mk.injEq] at h
        obtain ⟨rfl, rfl⟩ := h
        exact ⟨[], chain, rfl, by simp, hb⟩
      · rintro ⟨bef, aft, he, hn, ha⟩
        cases bef with
        | nil =>
          simp only [List.nil_append, List.cons.injEq] at he
          obtain ⟨rfl, rfl⟩ := he
          rw [hb] at ha
          simpa using ha
        | cons c bef =>
          simp only [List.cons_append, List.cons.injEq] at he
          have := hn c (by simp)
          rw [← he.1, hb] at this
          cases this
    | none =>
      dsimp only
      rw [ih]
      constructor
      · rintro ⟨bef, aft, he, hn, ha⟩
        refine ⟨b :: bef, aft, by rw [he]; rfl, ?_, ha⟩
        intro c hc
        rcases List.mem_cons.1 hc with rfl | hc
        · exact hb
        · exact hn c hc
      · rintro ⟨bef, aft, he, hn, ha⟩
        cases bef with
        | nil =>
          simp only [List.nil_append, List.cons.injEq] at he
          rw [he.1, ha] at hb
          cases hb
        | cons c bef =>
          simp only [List.cons_append, List.cons.injEq] at he
          exact ⟨bef, aft, he.2, fun d hd => hn d (by simp [hd]), ha⟩

theorem findData_none {m : TransferMap E K} {chain : List E} : findData m chain = none ↔ ∀ a ∈ chain, m a = none := by
  induction chain with
  | nil => simp [findData]
  | cons b chain ih =>
    rw [findData]
    cases hb : m b with
    | some w => simp [hb]
    | none => simp [ih, hb]

section
variable [Field K] [DecidableEq E] [DecidableEq D]

theorem cells_none (r : Replay E X D K) (m : TransferMap E K) (es : List E) (s) :
    r.cells m es s = none ↔ ∃ e ∈ es, ∀ a ∈ e :: r.grid.up e, m a = none := by
  induction es generalizing s with
  | nil => simp [Replay.cells]
  | cons e es ih =>
    rw [Replay.cells]
    cases hf : findData m (e :: r.grid.up e) with
    | none =>
      simp only [true_iff]
      exact ⟨e, by simp, findData_none.1 hf⟩
    | some av =>
      obtain ⟨a, v⟩ := av
      dsimp only
      rw [ih]
      constructor
      · rintro ⟨e', he', h⟩
        exact ⟨e', List.mem_cons_of_mem _ he', h⟩
      · rintro ⟨e', he', h⟩
        rcases List.mem_cons.1 he' with rfl | he'
        · rw [findData_none.2 h] at hf; cases hf
        · exact ⟨e', he', h⟩

theorem cells_some (r : Replay E X D K) (m : TransferMap E K) (loc : E → List K) (es : List E) (s s')
    (hloc : ∀ e ∈ es, ∃ a v, Nearest m (e :: r.grid.up e) a v ∧ loc e = r.localVector e a v)
    (hlen : ∀ e ∈ es, (loc e).length = (r.dofs e).length) (h : r.cells m es s = some s') (d : D) :
    s'.1 d = s.1 d + (contributions r.dofs loc es d).sum ∧ s'.2 d = s.2 d + (contributions r.dofs loc es d).length := by
  induction es generalizing s with
  | nil => simp only [Replay.cells, Option.some.injEq] at h; subst h; simp [contributions]
  | cons e es ih =>
    rw [Replay.cells] at h
    obtain ⟨a, v, hn, hl⟩ := hloc e (by simp)
    rw [findData_some.2 hn] at h
    dsimp only at h
    have := ih _ (fun e he => hloc e (by simp [he])) (fun e he => hlen e (by simp [he])) h
    rw [this.1, this.2]
    unfold contributions
    rw [List.flatMap_cons, List.sum_append, List.length_append]
    dsimp only
    rw [addLocal_apply, addLocal_apply, ← hl, count_apply (r.dofs e) (loc e) (hlen e (by simp)), add_assoc, Nat.add_assoc]
    exact ⟨rfl, rfl⟩

end

/-! ### The backup -/

section
variable [Field K] [DecidableEq E]

theorem set_same (m : TransferMap E K) (e : E) (v : List K) : m.set e v e = some v := by simp [TransferMap.set]

theorem set_other (m : TransferMap E K) {e a : E} (v : List K) (h : a ≠ e) : m.set e v a = m a := by simp [TransferMap.set, h]

/-- An entry with data is never changed by the loop over the ancestors. -/
theorem climb_keeps (b : Backup E X D K) (rest : List E) (cur : E) (m : TransferMap E K) (a : E) (v : List K) (hv : v ≠ [])
    (h : m a = some v) : b.climb cur rest m a = some v := by
  induction rest generalizing cur m with
  | nil => exact h
  | cons c rest ih =>
    rw [Backup.climb]
    split
    · split
      · exact ih _ _ h
      · rename_i hl
        apply ih
        rw [set_other _ _ _, h]
        rintro rfl
        rw [h] at hl
        apply hl
        exact List.length_pos_iff.2 hv
    · exact h

/-- Where entries are after the loop over the ancestors. -/
theorem climb_isSome (b : Backup E X D K) (rest : List E) (cur : E) (m : TransferMap E K) (a : E) :
    b.climb cur rest m a ≠ none ↔ m a ≠ none ∨
      ∃ between after, rest = between ++ a :: after ∧ ∀ x ∈ cur :: between, b.grid.mightVanish x = true := by
  induction rest generalizing cur m with
  | nil => simp [Backup.climb]
  | cons c rest ih =>
    have key : ∀ m' : TransferMap E K, (m' a ≠ none ↔ m a ≠ none ∨ a = c) → b.grid.mightVanish cur = true →
        (b.climb c rest m' a ≠ none ↔ m a ≠ none ∨
          ∃ between after, c :: rest = between ++ a :: after ∧ ∀ x ∈ cur :: between, b.grid.mightVanish x = true) := by
      intro m' hm' hcur
      rw [ih, hm']
      constructor
      · rintro ((h | rfl) | ⟨bt, af, he, hx⟩)
        · exact Or.inl h
        · exact Or.inr ⟨[], rest, rfl, by simpa using hcur⟩
        · refine Or.inr ⟨c :: bt, af, by rw [he]; rfl, ?_⟩
          intro x hxm
          rcases List.mem_cons.1 hxm with rfl | hxm
          · exact hcur
          · exact hx x hxm
      · rintro (h | ⟨bt, af, he, hx⟩)
        · exact Or.inl (Or.inl h)
        · cases bt with
          | nil =>
            simp only [List.nil_append, List.cons.injEq] at he
            exact Or.inl (Or.inr he.1.symm)
          | cons y bt =>
            simp only [List.cons_append, List.cons.injEq] at he
            obtain ⟨rfl, he⟩ := he
            exact Or.inr ⟨bt, af, he, fun x hxm => hx x (List.mem_cons_of_mem _ hxm)⟩
    rw [Backup.climb]
    split
    · rename_i hcur
      split
      · rename_i hl
        refine key m ?_ hcur
        constructor
        · exact Or.inl
        · rintro (h | rfl)
          · exact h
          · intro h0
            rw [h0] at hl
            simp at hl
      · refine key _ ?_ hcur
        by_cases hac : a = c
        · subst hac; simp [set_same]
        · simp [set_other _ _ hac, hac]
    · rename_i hcur
      constructor
      · exact Or.inl
      · rintro (h | ⟨bt, af, he, hx⟩)
        · exact h
        · exact absurd (hx cur (by simp)) hcur

theorem visit_isSome (b : Backup E X D K) (m : TransferMap E K) (e a : E) :
    b.visit m e a ≠ none ↔ m a ≠ none ∨ a = e ∨
      ∃ between after, b.grid.up e = between ++ a :: after ∧ ∀ x ∈ e :: between, b.grid.mightVanish x = true := by
  unfold Backup.visit
  rw [climb_isSome, ← or_assoc]
  refine or_congr ?_ Iff.rfl
  by_cases h : a = e
  · subst h; simp [set_same]
  · simp [set_other _ _ h, h]

theorem run_isSome_aux (b : Backup E X D K) (cells : List E) (m : TransferMap E K) (a : E) :
    cells.foldl b.visit m a ≠ none ↔ m a ≠ none ∨ ∃ c ∈ cells, a = c ∨
      ∃ between after, b.grid.up c = between ++ a :: after ∧ ∀ x ∈ c :: between, b.grid.mightVanish x = true := by
  induction cells generalizing m with
  | nil => simp
  | cons c cells ih =>
    rw [List.foldl_cons, ih, visit_isSome, or_assoc]
    simp [List.exists_mem_cons_iff]

theorem run_isSome (b : Backup E X D K) (cells : List E) (a : E) :
    b.run cells a ≠ none ↔ ∃ c ∈ cells, a = c ∨
      ∃ between after, b.grid.up c = between ++ a :: after ∧ ∀ x ∈ c :: between, b.grid.mightVanish x = true := by
  unfold Backup.run
  rw [run_isSome_aux]
  simp

theorem visit_keeps (b : Backup E X D K) (m : TransferMap E K) (e c : E) (hc : b.read c ≠ []) (h : m c = some (b.read c)) :
    b.visit m e c = some (b.read c) := by
  unfold Backup.visit
  apply climb_keeps _ _ _ _ _ _ hc
  by_cases hce : c = e
  · subst hce; rw [set_same]
  · rw [set_other _ _ hce, h]

theorem foldl_visit_keeps (b : Backup E X D K) (cells : List E) (m : TransferMap E K) (c : E) (hc : b.read c ≠ [])
    (h : m c = some (b.read c)) : cells.foldl b.visit m c = some (b.read c) := by
  induction cells generalizing m with
  | nil => exact h
  | cons e cells ih => rw [List.foldl_cons]; exact ih _ (visit_keeps b m e c hc h)

/-- The data of a cell of the old grid is in the map. -/
theorem run_cell (b : Backup E X D K) (cells : List E) (c : E) (hm : c ∈ cells) (hc : b.read c ≠ []) :
    b.run cells c = some (b.read c) := by
  obtain ⟨pre, post, rfl⟩ := List.append_of_mem hm
  unfold Backup.run
  rw [List.foldl_append, List.foldl_cons]
  apply foldl_visit_keeps _ _ _ _ hc
  unfold Backup.visit
  exact climb_keeps _ _ _ _ _ _ hc (set_same _ _ _)

/-- Every entry is the data of a cell or a projection, provided that entries are complete. -/
theorem climb_entry (b : Backup E X D K) (rest : List E) (cur : E) (m : TransferMap E K) (P : E → List K → Prop)
    (hproj : ∀ a ∈ rest, P a (b.project a)) (hm : ∀ a v, m a = some v → P a v) (a : E) (v : List K)
    (h : b.climb cur rest m a = some v) : P a v := by
  induction rest generalizing cur m with
  | nil => exact hm a v h
  | cons c rest ih =>
    rw [Backup.climb] at h
    split at h
    · split at h
      · exact ih _ _ (fun x hx => hproj x (by simp [hx])) hm h
      · refine ih _ _ (fun x hx => hproj x (by simp [hx])) ?_ h
        intro x w hx
        by_cases hxc : x = c
        · subst hxc
          rw [set_same] at hx
          simp only [Option.some.injEq] at hx
          subst hx
          exact hproj x (by simp)
        · rw [set_other _ _ hxc] at hx
          exact hm x w hx
    · exact hm a v h

theorem run_entry_aux (b : Backup E X D K) (cells : List E) (m : TransferMap E K) (P : E → List K → Prop)
    (hproj : ∀ c ∈ cells, ∀ a ∈ b.grid.up c, P a (b.project a)) (hread : ∀ c ∈ cells, P c (b.read c))
    (hm : ∀ a v, m a = some v → P a v) (a : E) (v : List K) (h : cells.foldl b.visit m a = some v) : P a v := by
  induction cells generalizing m with
  | nil => exact hm a v h
  | cons c cells ih =>
    rw [List.foldl_cons] at h
    refine ih _ (fun x hx => hproj x (by simp [hx])) (fun x hx => hread x (by simp [hx])) ?_ h
    intro x w hx
    refine climb_entry b _ _ _ P (fun y hy => hproj c (by simp) y hy) ?_ x w hx
    intro y z hy
    by_cases hyc : y = c
    · subst hyc
      rw [set_same] at hy
      simp only [Option.some.injEq] at hy
      subst hy
      exact hread y (by simp)
    · rw [set_other _ _ hyc] at hy
      exact hm y z hy

theorem run_entry (b : Backup E X D K) (cells : List E) (P : E → List K → Prop)
    (hproj : ∀ c ∈ cells, ∀ a ∈ b.grid.up c, P a (b.project a)) (hread : ∀ c ∈ cells, P c (b.read c)) (a : E) (v : List K)
    (h : b.run cells a = some v) : P a v :=
  run_entry_aux b cells _ P hproj hread (by simp) a v h

end

/-! ### The projection -/

section
variable [Field K]

theorem combine_eq (c p : List K) : combine c p = value c p := by
  unfold value
  induction c generalizing p with
  | nil => simp [combine]
  | cons x c ih =>
    cases p with
    | nil => simp [combine]
    | cons y p => simp [combine, ih]

theorem value_append (block rest p : List K) (h : p.length = block.length) : value (block ++ rest) p = value block p := by
  unfold value
  induction block generalizing p with
  | nil => simp at h; subst h; simp
  | cons x b ih =>
    cases p with
    | nil => simp at h
    | cons y p => simp at h; simp [ih p h]

/-- The linear combination as a sum over positions. -/
theorem value_range (c p : List K) (h : p.length = c.length) :
    value c p = ((List.range c.length).map fun j => c.getD j 0 * p.getD j 0).sum := by
  unfold value
  induction c generalizing p with
  | nil => simp
  | cons x c ih =>
    cases p with
    | nil => simp at h
    | cons y p =>
      simp only [List.length_cons, Nat.add_right_cancel_iff] at h
      rw [List.zipWith_cons_cons, List.sum_cons, ih p h, List.length_cons, List.range_succ_eq_map, List.map_cons, List.sum_cons,
        List.map_map]
      rfl

/-- The value one leaf of one child contributes to position `i`. -/
def leafSum (q : Quad E X K) (l : Leaf E X K) (inv : Nat → Nat → K) (order : Nat) (anc cur : E) (f : X → K) (i : Nat) : K :=
  ((q.rule order cur).map fun p => p.2 * q.integrationElement cur p.1 / q.integrationElement anc p.1 *
    (((List.range (l.size anc)).map fun j => inv i j * (l.phi anc p.1).getD j 0).sum * f p.1)).sum

theorem foldl_projectPoint (q : Quad E X K) (l : Leaf E X K) (inv : Nat → Nat → K) (anc cur : E) (coff foff : Nat) (uFine : List K)
    (f : X → K) (pts : List (X × K)) (hf : ∀ p ∈ pts, combine (uFine.drop foff) (l.phi cur p.1) = f p.1) (v : Nat → K) (k : Nat) :
    pts.foldl (projectPoint q l inv anc cur coff foff uFine) v k =
      v k + if coff ≤ k ∧ k < coff + l.size anc then
        (pts.map fun p => p.2 * q.integrationElement cur p.1 / q.integrationElement anc p.1 *
          (((List.range (l.size anc)).map fun j => inv (k - coff) j * (l.phi anc p.1).getD j 0).sum * f p.1)).sum else 0 := by
  induction pts generalizing v with
  | nil => simp
  | cons p pts ih =>
    rw [List.foldl_cons, ih (fun p hp => hf p (by simp [hp])), List.map_cons, List.sum_cons]
    unfold projectPoint
    dsimp only
    rw [hf p (by simp)]
    split
    · ring
    · rfl

/-- What one child contributes to position `k`. -/
def blockVal (q : Quad E X K) (invert : Nat → (Nat → Nat → K) → Nat → Nat → K) (order intOrder : Nat) (anc cur : E) :
    List (Leaf E X K) → List (X → K) → Nat → Nat → K
  | l :: ls, f :: fs, coff, k =>
    (if coff ≤ k ∧ k < coff + l.size anc then
      leafSum q l (invert (l.size anc) (massMatrix q order l anc)) intOrder anc cur f (k - coff) else 0) +
    blockVal q invert order intOrder anc cur ls fs (coff + l.size anc) k
  | _, _, _, _ => 0

theorem projectLeaves_eq (q : Quad E X K) (invert) (order intOrder : Nat) (anc cur : E) (uFine : List K) (leaves : List (Leaf E X K))
    (fs : List (X → K)) (pts : X → Prop) (hpts : ∀ p ∈ q.rule intOrder cur, pts p.1)
    (hphi : ∀ l ∈ leaves, ∀ x, (l.phi cur x).length = l.size cur)
    (coff foff : Nat) (hrep : Represents pts cur leaves (uFine.drop foff) fs) (v : Nat → K) (k : Nat) :
    projectLeaves q invert order intOrder anc cur uFine leaves coff foff v k =
      v k + blockVal q invert order intOrder anc cur leaves fs coff k := by
  induction leaves generalizing coff foff fs v with
  | nil => simp [projectLeaves, blockVal]
  | cons l ls ih =>
    obtain ⟨block, rest, f, fs', hu, hlen, rfl, hval, hrest⟩ := hrep
    rw [projectLeaves, ih fs' (fun l hl => hphi l (by simp [hl])), blockVal, foldl_projectPoint q l _ anc cur coff foff uFine f, add_assoc]
    · rfl
    · intro p hp
      rw [combine_eq, hu, value_append _ _ _ (by rw [hphi l (by simp), hlen])]
      exact hval _ (hpts p hp)
    · rw [← List.drop_drop, hu, ← hlen, List.drop_left]
      exact hrest

theorem foldl_children (b : Backup E X D K) (a : E) (cs : List E) (fs : List (X → K)) (pts : E → X → Prop)
    (hpts : ∀ c ∈ cs, ∀ p ∈ b.quad.rule 2 c, pts c p.1) (hphi : ∀ c ∈ cs, ∀ l ∈ b.leaves, ∀ x, (l.phi c x).length = l.size c)
    (hrep : ∀ c ∈ cs, Represents (pts c) c b.leaves (b.read c) fs) (v : Nat → K) (k : Nat) :
    cs.foldl (fun v c => projectLeaves b.quad b.invert b.order 2 a c (b.read c) b.leaves 0 0 v) v k =
      v k + (cs.map fun c => blockVal b.quad b.invert b.order 2 a c b.leaves fs 0 k).sum := by
  induction cs generalizing v with
  | nil => simp
  | cons c cs ih =>
    rw [List.foldl_cons, ih (fun c hc => hpts c (by simp [hc])) (fun c hc => hphi c (by simp [hc])) (fun c hc => hrep c (by simp [hc])),
      projectLeaves_eq b.quad b.invert b.order 2 a c (b.read c) b.leaves fs (pts c) (hpts c (by simp)) (hphi c (by simp)) 0 0
        (by simpa using hrep c (by simp)), List.map_cons, List.sum_cons, add_assoc]

theorem sum_comm' {α β : Type} (l : List α) (m : List β) (f : α → β → K) :
    (l.map fun a => (m.map fun b => f a b).sum).sum = (m.map fun b => (l.map fun a => f a b).sum).sum := by
  induction l with
  | nil => simp
  | cons a l ih => simp [ih, List.sum_map_add]

theorem mul_sum' {α : Type} (l : List α) (c : K) (f : α → K) : c * (l.map f).sum = (l.map fun a => c * f a).sum := by
  induction l with
  | nil => simp
  | cons a l ih => simp [mul_add, ih]

theorem sum_mul' {α : Type} (l : List α) (c : K) (f : α → K) : (l.map f).sum * c = (l.map fun a => f a * c).sum := by
  rw [mul_comm, mul_sum']
  exact congrArg List.sum (List.map_congr_left fun a _ => mul_comm _ _)

theorem sum_delta (n i : Nat) (hi : i < n) (c : Nat → K) :
    ((List.range n).map fun m => (if i = m then 1 else 0) * c m).sum = c i := by
  induction n with
  | zero => omega
  | succ n ih =>
    rw [List.range_succ, List.map_append, List.sum_append]
    by_cases h : i = n
    · subst h
      have : ((List.range i).map fun m => (if i = m then (1:K) else 0) * c m).sum = 0 := by
        apply List.sum_eq_zero
        intro x hx
        obtain ⟨m, hm, rfl⟩ := List.mem_map.1 hx
        rw [if_neg (by have := List.mem_range.1 hm; omega), zero_mul]
      rw [this]; simp
    · rw [ih (by omega)]; simp [h]

/-- The projection of a function which is a combination of the coarse basis has the coefficients of this combination. -/
theorem sum_leafSum (q : Quad E X K) (l : Leaf E X K) (inv : Nat → Nat → K) (order intOrder : Nat) (a : E) (cs : List E) (f : X → K)
    (block : List K) (hlen : block.length = l.size a) (hphi : ∀ x, (l.phi a x).length = l.size a)
    (hval : ∀ c ∈ cs, ∀ p ∈ q.rule intOrder c, value block (l.phi a p.1) = f p.1)
    (hexact : ∀ i j, i < l.size a → j < l.size a →
      integrate (q.rule order a) (fun x => (l.phi a x).getD i 0 * (l.phi a x).getD j 0) =
        (cs.map fun c => integrate (q.rule intOrder c) fun x =>
          q.integrationElement c x / q.integrationElement a x * ((l.phi a x).getD i 0 * (l.phi a x).getD j 0)).sum)
    (hinv : ∀ i j, i < l.size a → j < l.size a → product (l.size a) inv (massMatrix q order l a) i j = if i = j then 1 else 0)
    (i : Nat) (hi : i < l.size a) :
    (cs.map fun c => leafSum q l inv intOrder a c f i).sum = block.getD i 0 := by
  have hmass : ∀ j m, j < l.size a → m < l.size a → massMatrix q order l a j m =
      (cs.map fun c => integrate (q.rule intOrder c) fun x =>
        q.integrationElement c x / q.integrationElement a x * ((l.phi a x).getD j 0 * (l.phi a x).getD m 0)).sum := by
    intro j m hj hm
    rw [← hexact j m hj hm]
    unfold massMatrix integrate
    exact congrArg List.sum (List.map_congr_left fun p _ => by dsimp only; ring)
  -- expand the function
  have h1 : (cs.map fun c => leafSum q l inv intOrder a c f i).sum =
      ((List.range (l.size a)).map fun m => ((List.range (l.size a)).map fun j => inv i j *
        (cs.map fun c => integrate (q.rule intOrder c) fun x =>
          q.integrationElement c x / q.integrationElement a x * ((l.phi a x).getD j 0 * (l.phi a x).getD m 0)).sum).sum *
          block.getD m 0).sum := by
    have h2 : ∀ c ∈ cs, leafSum q l inv intOrder a c f i =
        ((List.range (l.size a)).map fun m => ((List.range (l.size a)).map fun j => inv i j *
          (integrate (q.rule intOrder c) fun x =>
            q.integrationElement c x / q.integrationElement a x * ((l.phi a x).getD j 0 * (l.phi a x).getD m 0))).sum *
            block.getD m 0).sum := by
      intro c hc
      unfold leafSum integrate
      have h3 : ∀ p ∈ q.rule intOrder c, p.2 * q.integrationElement c p.1 / q.integrationElement a p.1 *
          (((List.range (l.size a)).map fun j => inv i j * (l.phi a p.1).getD j 0).sum * f p.1) =
          ((List.range (l.size a)).map fun m => ((List.range (l.size a)).map fun j =>
            inv i j * (p.2 * (q.integrationElement c p.1 / q.integrationElement a p.1 *
              ((l.phi a p.1).getD j 0 * (l.phi a p.1).getD m 0)))).sum * block.getD m 0).sum := by
        intro p hp
        rw [← hval c hc p hp, value_range _ _ (by rw [hphi, hlen]), hlen, mul_sum', mul_sum']
        refine congrArg List.sum (List.map_congr_left fun m _ => ?_)
        rw [sum_mul', mul_sum', sum_mul']
        refine congrArg List.sum (List.map_congr_left fun j _ => ?_)
        ring
      rw [List.map_congr_left h3, sum_comm']
      refine congrArg List.sum (List.map_congr_left fun m _ => ?_)
      rw [← sum_mul', sum_comm']
      congr 1
      refine congrArg List.sum (List.map_congr_left fun j _ => ?_)
      rw [mul_sum']
    rw [List.map_congr_left h2, sum_comm']
    refine congrArg List.sum (List.map_congr_left fun m _ => ?_)
    rw [← sum_mul', sum_comm']
    congr 1
    refine congrArg List.sum (List.map_congr_left fun j _ => ?_)
    rw [mul_sum']
  rw [h1]
  have h4 : ∀ m ∈ List.range (l.size a), ((List.range (l.size a)).map fun j => inv i j *
        (cs.map fun c => integrate (q.rule intOrder c) fun x =>
          q.integrationElement c x / q.integrationElement a x * ((l.phi a x).getD j 0 * (l.phi a x).getD m 0)).sum).sum *
          block.getD m 0 = (if i = m then 1 else 0) * block.getD m 0 := by
    intro m hm
    congr 1
    rw [← hinv i m hi (List.mem_range.1 hm)]
    unfold product
    refine congrArg List.sum (List.map_congr_left fun j hj => ?_)
    rw [hmass j m (List.mem_range.1 hj) (List.mem_range.1 hm)]
  rw [List.map_congr_left h4]
  exact sum_delta _ _ hi _

theorem sum_blockVal (q : Quad E X K) (invert) (order intOrder : Nat) (a : E) (cs : List E) (leaves : List (Leaf E X K))
    (fs : List (X → K)) (pts : X → Prop) (hpts : ∀ c ∈ cs, ∀ p ∈ q.rule intOrder c, pts p.1)
    (hphi : ∀ l ∈ leaves, ∀ x, (l.phi a x).length = l.size a)
    (hexact : ∀ l ∈ leaves, ∀ i j, i < l.size a → j < l.size a →
      integrate (q.rule order a) (fun x => (l.phi a x).getD i 0 * (l.phi a x).getD j 0) =
        (cs.map fun c => integrate (q.rule intOrder c) fun x =>
          q.integrationElement c x / q.integrationElement a x * ((l.phi a x).getD i 0 * (l.phi a x).getD j 0)).sum)
    (hinv : ∀ l ∈ leaves, ∀ i j, i < l.size a → j < l.size a →
      product (l.size a) (invert (l.size a) (massMatrix q order l a)) (massMatrix q order l a) i j = if i = j then 1 else 0)
    (ca : List K) (hrep : Represents pts a leaves ca fs) (coff k : Nat) :
    (cs.map fun c => blockVal q invert order intOrder a c leaves fs coff k).sum = if coff ≤ k then ca.getD (k - coff) 0 else 0 := by
  induction leaves generalizing fs ca coff with
  | nil =>
    obtain ⟨rfl, rfl⟩ := hrep
    simp [blockVal]
  | cons l ls ih =>
    obtain ⟨block, rest, f, fs', rfl, hlen, rfl, hval, hrest⟩ := hrep
    simp only [blockVal]
    rw [List.sum_map_add, ih fs' (fun l hl => hphi l (by simp [hl])) (fun l hl => hexact l (by simp [hl]))
      (fun l hl => hinv l (by simp [hl])) rest hrest]
    by_cases h1 : coff ≤ k ∧ k < coff + l.size a
    · rw [if_pos h1.1, if_neg (by omega), add_zero]
      simp only [if_pos h1]
      rw [sum_leafSum q l _ order intOrder a cs f block hlen (hphi l (by simp)) (fun c hc p hp => hval _ (hpts c hc p hp))
        (hexact l (by simp)) (hinv l (by simp)) _ (by omega), List.getD_append _ _ _ _ (by omega)]
    · simp only [if_neg h1]
      by_cases h2 : coff ≤ k
      · rw [if_pos h2, if_pos (by omega), List.getD_append_right _ _ _ _ (by omega)]
        simp [hlen, Nat.sub_sub]
      · rw [if_neg h2, if_neg (by omega)]; simp

theorem length_of_represents {pts : X → Prop} {e : E} {leaves : List (Leaf E X K)} {c : List K} {fs : List (X → K)}
    (h : Represents pts e leaves c fs) : c.length = totalSize leaves e := by
  induction leaves generalizing c fs with
  | nil => simp [h.1, totalSize]
  | cons l ls ih =>
    obtain ⟨block, rest, f, fs', rfl, hlen, rfl, hval, hrest⟩ := h
    have := ih hrest
    simp only [totalSize, List.map_cons, List.sum_cons, List.length_append] at *
    omega

/-- The data stored for an ancestor on which the function belongs to the coarse space. -/
theorem project_eq (b : Backup E X D K) (a : E) (fs : List (X → K)) (pts : E → X → Prop)
    (hpts : ∀ c ∈ (b.grid.descendants a).filter b.grid.isLeaf, ∀ p ∈ b.quad.rule 2 c, pts c p.1 ∧ pts a p.1)
    (hphi : ∀ e, ∀ l ∈ b.leaves, ∀ x, (l.phi e x).length = l.size e)
    (hexact : ∀ l ∈ b.leaves, ∀ i j, i < l.size a → j < l.size a →
      integrate (b.quad.rule b.order a) (fun x => (l.phi a x).getD i 0 * (l.phi a x).getD j 0) =
        (((b.grid.descendants a).filter b.grid.isLeaf).map fun c => integrate (b.quad.rule 2 c) fun x =>
          b.quad.integrationElement c x / b.quad.integrationElement a x * ((l.phi a x).getD i 0 * (l.phi a x).getD j 0)).sum)
    (hinv : ∀ l ∈ b.leaves, ∀ i j, i < l.size a → j < l.size a →
      product (l.size a) (b.invert (l.size a) (massMatrix b.quad b.order l a)) (massMatrix b.quad b.order l a) i j =
        if i = j then 1 else 0)
    (hold : ∀ c ∈ (b.grid.descendants a).filter b.grid.isLeaf, Represents (pts c) c b.leaves (b.read c) fs)
    (ca : List K) (hrep : Represents (pts a) a b.leaves ca fs) : b.project a = ca := by
  have hlen := length_of_represents hrep
  unfold Backup.project
  dsimp only
  apply List.ext_getElem
  · simp [hlen]
  · intro k h1 h2
    rw [List.getElem_map, List.getElem_range,
      foldl_children b a _ fs pts (fun c hc p hp => (hpts c hc p hp).1) (fun c _ => hphi c) hold,
      sum_blockVal b.quad b.invert b.order 2 a _ b.leaves fs (pts a) (fun c hc p hp => (hpts c hc p hp).2) (hphi a) hexact hinv ca hrep]
    simp [h2]

/-! ### The interpolation -/

theorem interpolate_eq (e anc : E) (leaves : List (Leaf E X K)) (fs : List (X → K)) (ptsE ptsA : X → Prop)
    (hsub : ∀ x, ptsE x → ptsA x) (hphi : ∀ l ∈ leaves, ∀ x, (l.phi anc x).length = l.size anc)
    (hint : ∀ l ∈ leaves, ∀ c : List K, c.length = l.size e → ∀ g : X → K, (∀ x, ptsE x → g x = value c (l.phi e x)) →
      l.interpolate e g = c)
    (uCoarse : List K) (aoff : Nat) (hA : Represents ptsA anc leaves (uCoarse.drop aoff) fs) (ce : List K)
    (hE : Represents ptsE e leaves ce fs) : interpolateLeaves e uCoarse anc leaves aoff = ce := by
  induction leaves generalizing fs aoff ce with
  | nil => rw [hE.1]; rfl
  | cons l ls ih =>
    obtain ⟨blockA, restA, f, fs', hu, hlenA, rfl, hvalA, hrestA⟩ := hA
    obtain ⟨blockE, restE, f', fs'', rfl, hlenE, hfs, hvalE, hrestE⟩ := hE
    simp only [List.cons.injEq] at hfs
    obtain ⟨rfl, rfl⟩ := hfs
    rw [interpolateLeaves, ih fs' (fun l hl => hphi l (by simp [hl])) (fun l hl => hint l (by simp [hl])) _ ?_ restE hrestE]
    · congr 1
      apply hint l (by simp) blockE hlenE
      intro x hx
      rw [combine_eq, hu, value_append _ _ _ (by rw [hphi l (by simp), hlenA]), hvalE x hx]
      exact hvalA x (hsub x hx)
    · rw [← List.drop_drop, hu, ← hlenA, List.drop_left]
      exact hrestA

/-- Local vectors are determined by the functions they stand for. -/
theorem represents_unique (e : E) (leaves : List (Leaf E X K)) (fs : List (X → K)) (pts : X → Prop)
    (hint : ∀ l ∈ leaves, ∀ c : List K, c.length = l.size e → ∀ g : X → K, (∀ x, pts x → g x = value c (l.phi e x)) →
      l.interpolate e g = c)
    (c c' : List K) (h : Represents pts e leaves c fs) (h' : Represents pts e leaves c' fs) : c = c' := by
  induction leaves generalizing fs c c' with
  | nil => rw [h.1, h'.1]
  | cons l ls ih =>
    obtain ⟨b1, r1, f, fs', rfl, hl1, rfl, hv1, hr1⟩ := h
    obtain ⟨b2, r2, f', fs'', rfl, hl2, hfs, hv2, hr2⟩ := h'
    simp only [List.cons.injEq] at hfs
    obtain ⟨rfl, rfl⟩ := hfs
    rw [ih fs' (fun l hl => hint l (by simp [hl])) r1 r2 hr1 hr2,
      ← hint l (by simp) b1 hl1 f (fun x hx => (hv1 x hx).symm), ← hint l (by simp) b2 hl2 f (fun x hx => (hv2 x hx).symm)]

end

/-! ### All processes -/

section
variable [Field K] [DecidableEq E] [DecidableEq D]

theorem localAll_some (ps : List (Process E X D K)) (ss) (h : localAll ps = some ss) :
    ss.map (·.1) = ps ∧ ∀ s ∈ ss, s.1.localData = some s.2 := by
  induction ps generalizing ss with
  | nil => simp only [localAll, Option.some.injEq] at h; subst h; simp
  | cons p ps ih =>
    rw [localAll] at h
    split at h
    · rename_i s ss' h1 h2
      simp only [Option.some.injEq] at h
      subst h
      obtain ⟨h3, h4⟩ := ih ss' h2
      refine ⟨by simp [h3], ?_⟩
      intro t ht
      rcases List.mem_cons.1 ht with rfl | ht
      · exact h1
      · exact h4 t ht
    · cases h

theorem localAll_none (ps : List (Process E X D K)) : localAll ps = none ↔ ∃ p ∈ ps, p.localData = none := by
  induction ps with
  | nil => simp [localAll]
  | cons p ps ih =>
    rw [localAll]
    cases h1 : p.localData with
    | none => simp [h1]
    | some s =>
      cases h2 : localAll ps with
      | none =>
        obtain ⟨q, hq, hn⟩ := ih.1 h2
        simp only [true_iff]
        exact ⟨q, by simp [hq], hn⟩
      | some ss =>
        simp only [reduceCtorEq, false_iff]
        rintro ⟨q, hq, hn⟩
        rcases List.mem_cons.1 hq with rfl | hq
        · rw [h1] at hn; cases hn
        · rw [ih.2 ⟨q, hq, hn⟩] at h2; cases h2

end

end Verif.Transfer
