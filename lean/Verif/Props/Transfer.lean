import Verif.Proofs.Transfer
import Mathlib.Algebra.Order.Ring.Rat
import Mathlib.Algebra.Field.Rat
import Mathlib.Tactic.NormNum
/-
Theorems about the transfer of solutions in grid adaptation (C43, C78, C79, C80).
-/
namespace Verif

open Transfer Transfer.Spec

namespace Transfer

variable {E X D K : Type} [Field K] [DecidableEq E] [DecidableEq D]

theorem shared_sum (ss : List (Process E X D K × ((D → K) × (D → Nat)))) (d : D) (g : Process E X D K → List K)
    (h : ∀ s ∈ ss, s.2.1 d = (g s.1).sum ∧ s.2.2 d = (g s.1).length) :
    (((ss.map fun t => (t.1, t.2.1)).filter fun q => q.1.interiorBorder d).map fun q => q.2 d).sum =
        (((ss.map (·.1)).filter fun q => q.interiorBorder d).flatMap g).sum ∧
      (((ss.map fun t => (t.1, t.2.2)).filter fun q => q.1.interiorBorder d).map fun q => q.2 d).sum =
        (((ss.map (·.1)).filter fun q => q.interiorBorder d).flatMap g).length := by
  induction ss with
  | nil => simp
  | cons s ss ih =>
    have ih := ih (fun t ht => h t (by simp [ht]))
    have hs := h s (by simp)
    by_cases hb : s.1.interiorBorder d
    · constructor
      · simp [hb, ih.1, hs.1]
      · simp [hb, ih.2, hs.2]
    · constructor
      · simp [hb, ih.1]
      · simp [hb, ih.2]

omit [Field K] [DecidableEq E] in
theorem mem_contributions {dofs : E → List D} {loc : E → List K} {cells : List E} {d : D} {x : K} :
    x ∈ contributions dofs loc cells d ↔ ∃ e ∈ cells, (d, x) ∈ (dofs e).zip (loc e) := by
  unfold contributions
  rw [List.mem_flatMap]
  refine exists_congr fun e => and_congr Iff.rfl ?_
  rw [List.mem_filterMap]
  constructor
  · rintro ⟨⟨d', y⟩, hm, hy⟩
    split at hy
    · rename_i h
      simp only [Option.some.injEq] at hy
      dsimp only at h
      subst h hy
      exact hm
    · cases hy
  · intro hm
    exact ⟨(d, x), hm, by simp⟩

omit [Field K] [DecidableEq D] [DecidableEq E] in
theorem mem_zip_iff {dofs : List D} {v : List K} {d : D} {x : K} :
    (d, x) ∈ dofs.zip v ↔ ∃ i : Nat, dofs[i]? = some d ∧ v[i]? = some x := by
  rw [List.mem_iff_getElem?]
  refine exists_congr fun i => ?_
  rw [List.getElem?_zip_eq_some]

theorem mean_const [CharZero K] (l : List K) (x : K) (hne : l ≠ []) (h : ∀ y ∈ l, y = x) : mean l = x := by
  have hl : l = List.replicate l.length x := List.eq_replicate_iff.2 ⟨rfl, h⟩
  have hpos : l.length ≠ 0 := by simpa using hne
  unfold mean
  have hs : l.sum = (l.length : K) * x := by
    conv_lhs => rw [hl]
    rw [List.sum_replicate, nsmul_eq_mul]
  rw [hs, mul_div_assoc, mul_comm, div_mul_cancel₀]
  exact Nat.cast_ne_zero.2 hpos

end Transfer

section C43
variable {E X D K : Type} [Field K] [DecidableEq E] [DecidableEq D]

/-- **C43** (mean). After the adaptation every DOF on interior or border entities of a process has the arithmetic mean of the
contributions of all interior cells, of all processes, at which the DOF is; the contribution of a cell is the local vector obtained from
the nearest ancestor (or the cell itself) with stored data. -/
theorem C43_average (ps : List (Process E X D K)) (us : List (D → K)) (h : adaptGrid ps = some us)
    (loc : Process E X D K → E → List K)
    (hloc : ∀ p ∈ ps, ∀ e ∈ p.cellsAfter, ∃ a v,
      Nearest (p.backup.run p.cellsBefore) (e :: p.replay.grid.up e) a v ∧ loc p e = p.replay.localVector e a v)
    (hlen : ∀ p ∈ ps, ∀ e ∈ p.cellsAfter, (loc p e).length = (p.replay.dofs e).length) :
    us.length = ps.length ∧ ∀ (i : Nat) (p : Process E X D K) (u : D → K), ps[i]? = some p → us[i]? = some u →
      ∀ d, u d = mean (if p.interiorBorder d then
          (ps.filter fun q => q.interiorBorder d).flatMap fun q => contributions q.replay.dofs (loc q) q.cellsAfter d
        else contributions p.replay.dofs (loc p) p.cellsAfter d) := by
  unfold adaptGrid at h
  cases hss : localAll ps with
  | none => rw [hss] at h; cases h
  | some ss =>
    rw [hss] at h
    simp only [Option.map_some, Option.some.injEq] at h
    subst h
    obtain ⟨h1, h2⟩ := localAll_some ps ss hss
    have hdata : ∀ s ∈ ss, ∀ d, s.2.1 d = (contributions s.1.replay.dofs (loc s.1) s.1.cellsAfter d).sum ∧
        s.2.2 d = (contributions s.1.replay.dofs (loc s.1) s.1.cellsAfter d).length := by
      intro s hs d
      have hp : s.1 ∈ ps := by rw [← h1]; exact List.mem_map_of_mem hs
      have := cells_some s.1.replay _ (loc s.1) s.1.cellsAfter _ _ (hloc s.1 hp) (hlen s.1 hp) (h2 s hs) d
      simpa using this
    refine ⟨by rw [List.length_map, ← h1, List.length_map], ?_⟩
    intro i p u hp hu d
    rw [← h1, List.getElem?_map] at hp
    rw [List.getElem?_map] at hu
    cases hs : ss[i]? with
    | none => rw [hs] at hp; cases hp
    | some s =>
      rw [hs] at hp hu
      simp only [Option.map_some, Option.some.injEq] at hp hu
      subst hp hu
      have hmem : s ∈ ss := List.mem_of_getElem? hs
      unfold normalize
      have hdiv : ∀ (x : K) (n : Nat), (n = 0 → x = 0) → x / (if n > 0 then (n : K) else 1) = x / (n : K) := by
        intro x n hn
        by_cases h0 : n > 0
        · rw [if_pos h0]
        · rw [hn (by omega)]; simp
      unfold communicateAdd mean
      dsimp only
      by_cases hb : s.1.interiorBorder d
      · rw [if_pos hb, if_pos hb, if_pos hb]
        have := shared_sum ss d (fun q => contributions q.replay.dofs (loc q) q.cellsAfter d) (fun t ht => hdata t ht d)
        rw [this.1, this.2, h1, hdiv]
        intro h0
        rw [List.length_eq_zero_iff.1 h0]
        rfl
      · rw [if_neg hb, if_neg hb, if_neg hb, (hdata s hmem d).1, (hdata s hmem d).2, hdiv]
        intro h0
        rw [List.length_eq_zero_iff.1 h0]
        rfl

/-- **C43** (unchanged cells). If all the interior cells (of all processes) with a DOF existed already before the adaptation, with as many
local DOFs, and if the old vector has the same value `x` at the respective local DOF of all of them, the DOF has the value `x` exactly. -/
theorem C43_unchanged [CharZero K] (ps : List (Process E X D K)) (us : List (D → K)) (h : adaptGrid ps = some us)
    (i : Nat) (p : Process E X D K) (u : D → K) (hp : ps[i]? = some p) (hu : us[i]? = some u) (d : D) (x : K)
    (hib : p.interiorBorder d = true)
    (hex : ∃ q ∈ ps, q.interiorBorder d = true ∧ ∃ e ∈ q.cellsAfter, d ∈ q.replay.dofs e)
    (hsame : ∀ q ∈ ps, q.interiorBorder d = true → ∀ e ∈ q.cellsAfter, ∀ j : Nat, (q.replay.dofs e)[j]? = some d →
      e ∈ q.cellsBefore ∧ ((q.backup.dofs e)[j]?).map q.backup.u = some x)
    (hloclen : ∀ q ∈ ps, ∀ e ∈ q.cellsAfter, ∀ a v, Nearest (q.backup.run q.cellsBefore) (e :: q.replay.grid.up e) a v →
      (q.replay.localVector e a v).length = (q.replay.dofs e).length) : u d = x := by
  classical
  -- the local vectors
  have hfound : ∀ q ∈ ps, ∀ e ∈ q.cellsAfter, ∃ a v, Nearest (q.backup.run q.cellsBefore) (e :: q.replay.grid.up e) a v := by
    intro q hq e he
    cases hf : findData (q.backup.run q.cellsBefore) (e :: q.replay.grid.up e) with
    | some av => exact ⟨av.1, av.2, findData_some.1 hf⟩
    | none =>
      exfalso
      have : q.localData = none := (cells_none q.replay _ _ _).2 ⟨e, he, findData_none.1 hf⟩
      unfold adaptGrid at h
      rw [(localAll_none ps).2 ⟨q, hq, this⟩] at h
      cases h
  let loc : Process E X D K → E → List K := fun q e =>
    match findData (q.backup.run q.cellsBefore) (e :: q.replay.grid.up e) with
    | some (a, v) => q.replay.localVector e a v
    | none => []
  have hlocv : ∀ q e a v, Nearest (q.backup.run q.cellsBefore) (e :: q.replay.grid.up e) a v →
      loc q e = q.replay.localVector e a v := by
    intro q e a v hn
    simp only [loc, findData_some.2 hn]
  have hav := C43_average ps us h loc (fun q hq e he => by
      obtain ⟨a, v, hn⟩ := hfound q hq e he
      exact ⟨a, v, hn, hlocv q e a v hn⟩) (fun q hq e he => by
      obtain ⟨a, v, hn⟩ := hfound q hq e he
      rw [hlocv q e a v hn]
      exact hloclen q hq e he a v hn)
  rw [hav.2 i p u hp hu d, if_pos hib]
  apply mean_const
  · obtain ⟨q, hq, hqb, e, he, hd⟩ := hex
    obtain ⟨j, hj⟩ := List.getElem?_of_mem hd
    obtain ⟨a, v, hn⟩ := hfound q hq e he
    have hlen := hloclen q hq e he a v hn
    rw [← hlocv q e a v hn] at hlen
    have hjl : j < (loc q e).length := by
      rw [hlen]
      exact (List.getElem?_eq_some_iff.1 hj).1
    apply List.ne_nil_of_mem (a := (loc q e)[j])
    rw [List.mem_flatMap]
    refine ⟨q, List.mem_filter.2 ⟨hq, hqb⟩, ?_⟩
    rw [mem_contributions]
    exact ⟨e, he, mem_zip_iff.2 ⟨j, hj, List.getElem?_eq_getElem hjl⟩⟩
  · intro y hy
    obtain ⟨q, hq, hy⟩ := List.mem_flatMap.1 hy
    obtain ⟨hq, hqb⟩ := List.mem_filter.1 hq
    obtain ⟨e, he, hz⟩ := mem_contributions.1 hy
    obtain ⟨j, hj, hyj⟩ := mem_zip_iff.1 hz
    obtain ⟨hb, hx⟩ := hsame q hq hqb e he j hj
    have hread : q.backup.read e ≠ [] := by
      intro h0
      have : (q.backup.read e)[j]? = some x := by simpa [Backup.read] using hx
      rw [h0] at this
      cases this
    have hrun := run_cell q.backup q.cellsBefore e hb hread
    have hn : Nearest (q.backup.run q.cellsBefore) (e :: q.replay.grid.up e) e (q.backup.read e) :=
      ⟨[], q.replay.grid.up e, rfl, by simp, hrun⟩
    rw [hlocv q e _ _ hn, Replay.localVector, if_pos rfl] at hyj
    have : (q.backup.read e)[j]? = some x := by simpa [Backup.read] using hx
    rw [hyj] at this
    simpa using this

/-- **C43** (exception). The adaptation ends with an exception exactly if, on some process, some interior cell of the new grid has no
ancestor (or is not itself) an interior cell of the old grid or reached from one through elements that might vanish. -/
theorem C43_exception (ps : List (Process E X D K)) :
    adaptGrid ps = none ↔ ∃ p ∈ ps, ∃ e ∈ p.cellsAfter, ∀ a ∈ e :: p.replay.grid.up e, ¬ Stored p a := by
  unfold adaptGrid
  rw [Option.map_eq_none_iff, localAll_none]
  refine exists_congr fun p => and_congr Iff.rfl ?_
  unfold Process.localData
  rw [cells_none]
  refine exists_congr fun e => and_congr Iff.rfl (forall_congr' fun a => imp_congr Iff.rfl ?_)
  rw [← not_iff_not]
  exact (run_isSome p.backup p.cellsBefore a).trans not_not.symm

/-- **C78** (proved part). The transfer preserves every function that belongs to the discrete spaces before and after the adaptation:
if the functions `fs` (one per leaf of the function space tree) are represented by the old vector on all leaf elements of the old
grid, belong to the coarse space on all ancestors of the cells, and are represented by `v` on the cells of the new grid, the new
vector has the values `v`. This holds if the local interpolation reproduces the local basis, mass matrices are inverted, and the
quadrature rules *of order two* on the leaf descendants of an element yield the same mass matrix as the rule of the given order on it. -/
theorem C78_reproduction_partial [CharZero K] (ps : List (Process E X D K)) (us : List (D → K)) (h : adaptGrid ps = some us)
    (fs : List (X → K)) (v : D → K) (pts : E → X → Prop)
    -- finite elements
    (hleaves : ∀ p ∈ ps, p.replay.leaves = p.backup.leaves)
    (hphi : ∀ p ∈ ps, ∀ e, ∀ l ∈ p.backup.leaves, ∀ x, (l.phi e x).length = l.size e)
    (hint : ∀ p ∈ ps, ∀ e, ∀ l ∈ p.backup.leaves, ∀ c : List K, c.length = l.size e → ∀ g : X → K,
      (∀ x, pts e x → g x = value c (l.phi e x)) → l.interpolate e g = c)
    -- geometry, quadrature, inversion
    (hpts : ∀ p ∈ ps, ∀ a, ∀ c ∈ (p.backup.grid.descendants a).filter p.backup.grid.isLeaf,
      ∀ y ∈ p.backup.quad.rule 2 c, pts c y.1 ∧ pts a y.1)
    (hsub : ∀ p ∈ ps, ∀ e ∈ p.cellsAfter, ∀ a ∈ p.replay.grid.up e, ∀ x, pts e x → pts a x)
    (hexact : ∀ p ∈ ps, ∀ c ∈ p.cellsBefore, ∀ a ∈ p.backup.grid.up c, ∀ l ∈ p.backup.leaves, ∀ i j, i < l.size a → j < l.size a →
      integrate (p.backup.quad.rule p.backup.order a) (fun x => (l.phi a x).getD i 0 * (l.phi a x).getD j 0) =
        (((p.backup.grid.descendants a).filter p.backup.grid.isLeaf).map fun c => integrate (p.backup.quad.rule 2 c) fun x =>
          p.backup.quad.integrationElement c x / p.backup.quad.integrationElement a x *
            ((l.phi a x).getD i 0 * (l.phi a x).getD j 0)).sum)
    (hinv : ∀ p ∈ ps, ∀ c ∈ p.cellsBefore, ∀ a ∈ p.backup.grid.up c, ∀ l ∈ p.backup.leaves, ∀ i j, i < l.size a → j < l.size a →
      product (l.size a) (p.backup.invert (l.size a) (massMatrix p.backup.quad p.backup.order l a))
        (massMatrix p.backup.quad p.backup.order l a) i j = if i = j then 1 else 0)
    -- the function on the old grid, on the ancestors, and on the new grid
    (hcells : ∀ p ∈ ps, ∀ c ∈ p.cellsBefore, Represents (pts c) c p.backup.leaves ((p.backup.dofs c).map p.backup.u) fs)
    (hold : ∀ p ∈ ps, ∀ a, ∀ c ∈ (p.backup.grid.descendants a).filter p.backup.grid.isLeaf,
      Represents (pts c) c p.backup.leaves ((p.backup.dofs c).map p.backup.u) fs)
    (hcoarse : ∀ p ∈ ps, ∀ c ∈ p.cellsBefore, ∀ a ∈ p.backup.grid.up c, ∃ coef, Represents (pts a) a p.backup.leaves coef fs)
    (hnew : ∀ p ∈ ps, ∀ e ∈ p.cellsAfter, Represents (pts e) e p.backup.leaves ((p.replay.dofs e).map v) fs) :
    ∀ (i : Nat) (p : Process E X D K) (u : D → K), ps[i]? = some p → us[i]? = some u →
      ∀ e ∈ p.cellsAfter, ∀ d ∈ p.replay.dofs e, u d = v d := by
  classical
  -- what is stored represents the function
  have hstored : ∀ p ∈ ps, ∀ a w, p.backup.run p.cellsBefore a = some w → Represents (pts a) a p.backup.leaves w fs := by
    intro p hp a w hw
    refine run_entry p.backup p.cellsBefore (fun a w => Represents (pts a) a p.backup.leaves w fs) ?_ (hcells p hp) a w hw
    intro c hc a ha
    obtain ⟨coef, hcoef⟩ := hcoarse p hp c hc a ha
    rw [project_eq p.backup a fs pts (hpts p hp a) (hphi p hp) (hexact p hp c hc a ha) (hinv p hp c hc a ha) (hold p hp a) coef hcoef]
    exact hcoef
  have hloc : ∀ p ∈ ps, ∀ e ∈ p.cellsAfter, ∃ a w, Nearest (p.backup.run p.cellsBefore) (e :: p.replay.grid.up e) a w ∧
      (p.replay.dofs e).map v = p.replay.localVector e a w := by
    intro p hp e he
    cases hf : findData (p.backup.run p.cellsBefore) (e :: p.replay.grid.up e) with
    | none =>
      exfalso
      have : p.localData = none := (cells_none p.replay _ _ _).2 ⟨e, he, findData_none.1 hf⟩
      unfold adaptGrid at h
      rw [(localAll_none ps).2 ⟨p, hp, this⟩] at h
      cases h
    | some av =>
      obtain ⟨a, w⟩ := av
      have hn := findData_some.1 hf
      refine ⟨a, w, hn, ?_⟩
      obtain ⟨bef, aft, hc, -, hw⟩ := hn
      have hrep := hstored p hp a w hw
      unfold Replay.localVector
      split
      · rename_i hea
        subst hea
        exact represents_unique e _ fs (pts e) (hint p hp e) _ _ (hnew p hp e he) hrep
      · rename_i hea
        have ha : a ∈ p.replay.grid.up e := by
          have : a ∈ e :: p.replay.grid.up e := by rw [hc]; simp
          rcases List.mem_cons.1 this with rfl | h'
          · exact absurd rfl hea
          · exact h'
        rw [hleaves p hp]
        refine (interpolate_eq e a p.backup.leaves fs (pts e) (pts a) (hsub p hp e he a ha) (hphi p hp a) (hint p hp e) w 0
          (by simpa using hrep) _ (hnew p hp e he)).symm
  intro i p u hp hu e he d hd
  have hav := (C43_average ps us h (fun q e => (q.replay.dofs e).map v) hloc (fun q hq e he => by simp)).2 i p u hp hu d
  have hpm : p ∈ ps := List.mem_of_getElem? hp
  have hall : ∀ q : Process E X D K, ∀ y ∈ contributions q.replay.dofs (fun e => (q.replay.dofs e).map v) q.cellsAfter d, y = v d := by
    intro q y hy
    obtain ⟨e', he', hz⟩ := mem_contributions.1 hy
    obtain ⟨j, hj, hyj⟩ := mem_zip_iff.1 hz
    rw [List.getElem?_map, hj] at hyj
    simpa using hyj.symm
  have hmem : v d ∈ contributions p.replay.dofs (fun e => (p.replay.dofs e).map v) p.cellsAfter d := by
    obtain ⟨j, hj⟩ := List.getElem?_of_mem hd
    exact mem_contributions.2 ⟨e, he, mem_zip_iff.2 ⟨j, hj, by simp [hj]⟩⟩
  rw [hav]
  apply mean_const
  · split
    · rename_i hb
      apply List.ne_nil_of_mem (a := v d)
      exact List.mem_flatMap.2 ⟨p, List.mem_filter.2 ⟨hpm, hb⟩, hmem⟩
    · exact List.ne_nil_of_mem hmem
  · intro y hy
    split at hy
    · obtain ⟨q, _, hy⟩ := List.mem_flatMap.1 hy
      exact hall q y hy
    · exact hall p y hy

end C43

/-! ### Examples: elements of an interval -/

namespace Transfer.Ex

/-- Left and right end of the elements: the unit interval (0) and its halves (1, 2). -/
def lo : Fin 3 → Rat
  | 0 => 0 | 1 => 0 | 2 => 1/2
def hi : Fin 3 → Rat
  | 0 => 1 | 1 => 1/2 | 2 => 1

/-- Linear elements. -/
def p1 : Leaf (Fin 3) Rat Rat where
  size _ := 2
  phi e x := [(hi e - x) / (hi e - lo e), (x - lo e) / (hi e - lo e)]
  interpolate e g := [g (lo e), g (hi e)]

/-- Quadratic elements. -/
def p2 : Leaf (Fin 3) Rat Rat where
  size _ := 3
  phi e x :=
    let t := (x - lo e) / (hi e - lo e)
    [(1 - t) * (1 - 2 * t), 4 * t * (1 - t), t * (2 * t - 1)]
  interpolate e g := [g (lo e), g ((lo e + hi e) / 2), g (hi e)]

/-- Simpson's rule up to order two, Boole's rule for higher ones. -/
def quad : Quad (Fin 3) Rat Rat where
  rule n e :=
    let at' (t : Rat) := lo e + t * (hi e - lo e)
    if n ≤ 2 then [(at' 0, 1/6), (at' (1/2), 4/6), (at' 1, 1/6)]
    else [(at' 0, 7/90), (at' (1/4), 32/90), (at' (1/2), 12/90), (at' (3/4), 32/90), (at' 1, 7/90)]
  integrationElement e _ := hi e - lo e

/-- The hierarchy; the leaf elements are given. -/
def grid (leaf : Fin 3 → Bool) : Hierarchy (Fin 3) where
  up e := if e = 0 then [] else [0]
  mightVanish e := decide (e ≠ 0)
  isLeaf := leaf
  descendants e := if e = 0 then [1, 2] else []

/-- Inverse mass matrices of linear and quadratic elements. -/
def inverse (n : Nat) (_ : Nat → Nat → Rat) (i j : Nat) : Rat :=
  if n = 2 then ([[4, -2], [-2, 4]].getD i []).getD j 0
  else ([[9, -3/2, 3], [-3/2, 9/4, -3/2], [3, -3/2, 9]].getD i []).getD j 0

/-- A process which has the halves before and the unit interval afterwards; DOFs are named by their nodes. -/
def coarsen (l : Leaf (Fin 3) Rat Rat) (order : Nat) (nodes : Fin 3 → List Rat) (u : Rat → Rat) : Process (Fin 3) Rat Rat Rat where
  backup := { grid := grid (fun e => decide (e ≠ 0)), leaves := [l], quad := quad, invert := inverse, order := order,
              dofs := nodes, u := u }
  cellsBefore := [1, 2]
  replay := { grid := grid (fun e => decide (e = 0)), leaves := [l], dofs := nodes }
  cellsAfter := [0]
  interiorBorder _ := true

/-- A process which has the unit interval before and one of its halves afterwards. -/
def refine (l : Leaf (Fin 3) Rat Rat) (nodes : Fin 3 → List Rat) (u : Rat → Rat) (half : Fin 3) : Process (Fin 3) Rat Rat Rat where
  backup := { grid := { grid (fun e => decide (e = 0)) with mightVanish := fun _ => false }, leaves := [l], quad := quad,
              invert := inverse, order := 2, dofs := nodes, u := u }
  cellsBefore := [0]
  replay := { grid := grid (fun e => decide (e ≠ 0)), leaves := [l], dofs := nodes }
  cellsAfter := [half]
  interiorBorder d := nodes half |>.contains d

def nodes1 (e : Fin 3) : List Rat := [lo e, hi e]
def nodes2 (e : Fin 3) : List Rat := [lo e, (lo e + hi e) / 2, hi e]

end Transfer.Ex

open Transfer.Ex

/- Refinement of linear elements, the halves on two processes: the midpoint is shared, its value is the mean of both contributions. -/
example : (adaptGrid [refine p1 nodes1 (fun x => 3 * x + 1) 1, refine p1 nodes1 (fun x => 3 * x + 1) 2]).map
    (fun us => us.map fun u => [u 0, u (1/2), u 1]) = some [[1, 5/2, 0], [0, 5/2, 4]] := by decide +kernel

example : (adaptGrid [refine p1 nodes1 (fun x => 3 * x + 1) 1, refine p1 nodes1 (fun x => 3 * x + 5) 2]).map
    (fun us => us.map fun u => [u 0, u (1/2), u 1]) = some [[1, 9/2, 0], [0, 9/2, 8]] := by decide +kernel

/- A cell without stored ancestor: exception. -/
example : (adaptGrid [{ refine p1 nodes1 (fun x => x) 1 with cellsBefore := [2] }]).isNone = true := by decide +kernel

/- An unchanged grid: hypotheses of `C43_unchanged`. -/
example (us : List (Rat → Rat))
    (h : adaptGrid [{ coarsen p1 2 nodes1 (fun x => 7 * x) with cellsAfter := [1, 2] }] = some us) (u : Rat → Rat)
    (hu : us[0]? = some u) : u (1/2) = 7/2 := by
  refine C43_unchanged _ us h 0 _ u rfl hu (1/2) (7/2) rfl ⟨_, List.mem_singleton_self _, rfl, 1, by decide, by decide +kernel⟩ ?_ ?_
  · intro q hq _ e he j hj
    obtain rfl := List.mem_singleton.1 hq
    have he' : e = 1 ∨ e = 2 := by simpa using he
    rcases he' with rfl | rfl
    · have hj' : ([0, 1/2] : List Rat)[j]? = some (1/2) := hj
      match j with
      | 0 => exact absurd hj' (by decide +kernel)
      | 1 => exact ⟨by decide, by decide +kernel⟩
      | j + 2 => exact absurd hj' (by simp)
    · have hj' : ([1/2, 1] : List Rat)[j]? = some (1/2) := hj
      match j with
      | 0 => exact ⟨by decide, by decide +kernel⟩
      | 1 => exact absurd hj' (by decide +kernel)
      | j + 2 => exact absurd hj' (by simp)
  · intro q hq e he a v hn
    obtain rfl := List.mem_singleton.1 hq
    have he' : e = 1 ∨ e = 2 := by simpa using he
    obtain h := findData_some.2 hn
    rcases he' with rfl | rfl
    · have : findData ((coarsen p1 2 nodes1 fun x => 7 * x).backup.run [1, 2]) [1, 0] = some (1, [0, 7/2]) := by decide +kernel
      have h' := this.symm.trans h
      simp only [Option.some.injEq, Prod.mk.injEq] at h'
      obtain ⟨rfl, rfl⟩ := h'
      rfl
    · have : findData ((coarsen p1 2 nodes1 fun x => 7 * x).backup.run [1, 2]) [2, 0] = some (2, [7/2, 7]) := by decide +kernel
      have h' := this.symm.trans h
      simp only [Option.some.injEq, Prod.mk.injEq] at h'
      obtain ⟨rfl, rfl⟩ := h'
      rfl

/- Coarsening of linear elements: hypotheses of `C78_reproduction_partial`. -/
example (us : List (Rat → Rat)) (h : adaptGrid [coarsen p1 2 nodes1 (fun x => 3 * x + 1)] = some us) (u : Rat → Rat)
    (hu : us[0]? = some u) : u 0 = 1 ∧ u 1 = 4 := by
  have key := C78_reproduction_partial [coarsen p1 2 nodes1 (fun x => 3 * x + 1)] us h [fun x => 3 * x + 1] (fun x => 3 * x + 1)
    (fun _ _ => True)
    (fun p hp => by obtain rfl := List.mem_singleton.1 hp; rfl)
    (fun p hp e l hl x => by
      obtain rfl := List.mem_singleton.1 hp
      obtain rfl := List.mem_singleton.1 hl
      rfl)
    (fun p hp e l hl c hc g hg => by
      obtain rfl := List.mem_singleton.1 hp
      obtain rfl := List.mem_singleton.1 hl
      match c, hc with
      | [c0, c1], _ =>
        show [g (lo e), g (hi e)] = _
        rw [hg _ trivial, hg _ trivial]
        match e with
        | 0 | 1 | 2 => norm_num [value, p1, lo, hi])
    (fun _ _ _ _ _ _ _ => ⟨trivial, trivial⟩)
    (fun _ _ _ _ _ _ _ _ => trivial)
    (fun p hp c hc a ha l hl => by
      obtain rfl := List.mem_singleton.1 hp
      obtain rfl := List.mem_singleton.1 hl
      have hc' : c = 1 ∨ c = 2 := by simpa [coarsen] using hc
      have ha' : a = 0 := by rcases hc' with rfl | rfl <;> simpa [coarsen, grid] using ha
      subst ha'
      intro i j hi' hj'
      have : ∀ i < 2, ∀ j < 2, integrate (quad.rule 2 0) (fun x => (p1.phi 0 x).getD i 0 * (p1.phi 0 x).getD j 0) =
        ([1, 2].map fun c => integrate (quad.rule 2 c) fun x =>
          quad.integrationElement c x / quad.integrationElement 0 x * ((p1.phi 0 x).getD i 0 * (p1.phi 0 x).getD j 0)).sum := by
        decide +kernel
      exact this i hi' j hj')
    (fun p hp c hc a ha l hl => by
      obtain rfl := List.mem_singleton.1 hp
      obtain rfl := List.mem_singleton.1 hl
      have hc' : c = 1 ∨ c = 2 := by simpa [coarsen] using hc
      have ha' : a = 0 := by rcases hc' with rfl | rfl <;> simpa [coarsen, grid] using ha
      subst ha'
      intro i j hi' hj'
      have : ∀ i < 2, ∀ j < 2, product 2 (inverse 2 (massMatrix quad 2 p1 0)) (massMatrix quad 2 p1 0) i j = if i = j then 1 else 0 := by
        decide +kernel
      exact this i hi' j hj')
    (fun p hp c hc => by
      obtain rfl := List.mem_singleton.1 hp
      refine ⟨[3 * lo c + 1, 3 * hi c + 1], [], _, [], rfl, rfl, rfl, ?_, rfl, rfl⟩
      intro x _
      have hc' : c = 1 ∨ c = 2 := by simpa [coarsen] using hc
      rcases hc' with rfl | rfl <;> norm_num [value, p1, lo, hi] <;> ring)
    (fun p hp a c hc => by
      obtain rfl := List.mem_singleton.1 hp
      refine ⟨[3 * lo c + 1, 3 * hi c + 1], [], _, [], rfl, rfl, rfl, ?_, rfl, rfl⟩
      intro x _
      match c with
      | 0 | 1 | 2 => norm_num [value, p1, lo, hi] <;> ring)
    (fun p hp c hc a ha => by
      obtain rfl := List.mem_singleton.1 hp
      refine ⟨[3 * lo a + 1, 3 * hi a + 1], [3 * lo a + 1, 3 * hi a + 1], [], _, [], rfl, rfl, rfl, ?_, rfl, rfl⟩
      intro x _
      match a with
      | 0 | 1 | 2 => norm_num [value, p1, lo, hi] <;> ring)
    (fun p hp e he => by
      obtain rfl := List.mem_singleton.1 hp
      refine ⟨[3 * lo e + 1, 3 * hi e + 1], [], _, [], rfl, rfl, rfl, ?_, rfl, rfl⟩
      intro x _
      match e with
      | 0 | 1 | 2 => norm_num [value, p1, lo, hi] <;> ring)
    0 _ u rfl hu 0 (by decide)
  have h0 := key 0 (by decide +kernel)
  have h1 := key 1 (by decide +kernel)
  norm_num at h0 h1
  exact ⟨h0, h1⟩

/-- **C78** is false of the code: the projection to a vanishing element's ancestor always uses the quadrature of order two, whatever
order is passed to `adapt_grid`. For quadratic elements on the halves of an interval and the order 4, with exact rules of order 2 and 4
and correctly inverted mass matrices, coarsening the function x² (which belongs to all spaces) changes it. -/
theorem C78_reproduction_false :
    -- the rules are exact for the polynomials of their order
    (∀ e : Fin 3, (∀ k : Nat, k ≤ 2 → integrate (quad.rule 2 e) (fun x => (hi e - lo e) * x ^ k) = (hi e ^ (k + 1) - lo e ^ (k + 1)) / ((k : Rat) + 1)) ∧
      (∀ k : Nat, k ≤ 4 → integrate (quad.rule 4 e) (fun x => (hi e - lo e) * x ^ k) = (hi e ^ (k + 1) - lo e ^ (k + 1)) / ((k : Rat) + 1))) ∧
    -- the mass matrix is inverted
    (∀ i < 3, ∀ j < 3, product 3 (inverse 3 (massMatrix quad 4 p2 0)) (massMatrix quad 4 p2 0) i j = if i = j then 1 else 0) ∧
    -- the function belongs to all spaces
    (∀ (e : Fin 3) (x : Rat), value ((nodes2 e).map fun y => y ^ 2) (p2.phi e x) = x ^ 2) ∧
    -- but is not preserved
    (adaptGrid [coarsen p2 4 nodes2 (fun y => y ^ 2)]).map (fun us => us.map fun u => [u 0, u (1/2), u 1]) ≠
      some [[0, (1/2) ^ 2, 1 ^ 2]] := by
  refine ⟨by decide +kernel, by decide +kernel, ?_, by decide +kernel⟩
  intro e x
  match e with
  | 0 | 1 | 2 => norm_num [value, p2, nodes2, lo, hi] <;> ring

/-! ### C79: the cache of the leaf offsets -/

/-- **C79** (proved part). If the numbers of DOFs per leaf depend on the geometry type only, the cache has, after any history of updates
in which an element of the type occurs, the sums of the sizes of the leaves before as offsets, and the number of all DOFs at the end. -/
theorem C79_leaf_offsets_partial (history : List (Nat × List Nat)) (gt : Nat) (sizes : List Nat) (hpos : 0 < sizes.sum)
    (huniform : ∀ x ∈ history, x.1 = gt → x.2 = sizes) (hocc : ∃ x ∈ history, x.1 = gt) :
    ∃ offsets, Cache.get (history.foldl (fun c x => c.update x.1 x.2) fun _ => none) gt = some offsets ∧
      offsets.length = sizes.length + 1 ∧ ∀ i ≤ sizes.length, offsets[i]? = some (sizes.take i).sum := by
  have haux : ∀ (acc : Nat) (l : List Nat), (offsetsFrom acc l).length = l.length + 1 ∧
      ∀ i ≤ l.length, (offsetsFrom acc l)[i]? = some (acc + (l.take i).sum) := by
    intro acc l
    induction l generalizing acc with
    | nil => simp [offsetsFrom]
    | cons s ss ih =>
      refine ⟨by simp [offsetsFrom, (ih _).1], ?_⟩
      intro i hi
      cases i with
      | zero => simp [offsetsFrom]
      | succ i =>
        simp only [offsetsFrom, List.getElem?_cons_succ]
        rw [(ih _).2 i (by simpa using hi)]
        simp [Nat.add_assoc]
  have hrun : ∀ (hist : List (Nat × List Nat)) (c : Cache), (∀ x ∈ hist, x.1 = gt → x.2 = sizes) →
      (c gt = some (offsetsFrom 0 sizes) ∨ (c gt = none ∧ ∃ x ∈ hist, x.1 = gt)) →
      hist.foldl (fun c x => c.update x.1 x.2) c gt = some (offsetsFrom 0 sizes) := by
    intro hist
    induction hist with
    | nil =>
      intro c _ h
      rcases h with h | ⟨_, h⟩
      · exact h
      · simp at h
    | cons y hist ih =>
      intro c hu h
      rw [List.foldl_cons]
      apply ih _ (fun x hx => hu x (by simp [hx]))
      by_cases hy : y.1 = gt
      · left
        have hsz := hu y (by simp) hy
        unfold Cache.update
        rw [hy]
        rcases h with h | ⟨h, _⟩
        · rw [h]; exact h
        · rw [h]
          dsimp only
          rw [if_neg (by rw [hsz]; omega), if_pos rfl, hsz]
      · have hsame : c.update y.1 y.2 gt = c gt := by
          unfold Cache.update
          cases hcy : c y.1 with
          | some o => rfl
          | none =>
            dsimp only
            by_cases h0 : y.2.sum = 0
            · rw [if_pos h0]
            · rw [if_neg h0, if_neg (fun h' => hy h'.symm)]
        rcases h with h | ⟨h, x, hx, hxg⟩
        · left; rw [hsame, h]
        · right
          refine ⟨by rw [hsame, h], x, ?_, hxg⟩
          rcases List.mem_cons.1 hx with rfl | hx
          · exact absurd hxg hy
          · exact hx
  refine ⟨offsetsFrom 0 sizes, hrun history _ huniform (Or.inr ⟨rfl, hocc⟩), (haux 0 sizes).1, ?_⟩
  intro i hi
  rw [(haux 0 sizes).2 i hi, Nat.zero_add]

example : Cache.get ([(2, [3, 3, 1]), (0, [1, 1, 1]), (2, [3, 3, 1])].foldl (fun c x => c.update x.1 x.2) fun _ => none) 2 =
    some [0, 3, 6, 7] := by decide

/-- **C79** is false if elements of the same type may have different numbers of DOFs (finite element maps with variable order): the
offsets are those of the element that was seen first. -/
theorem C79_leaf_offsets_false : ∃ (first second : List Nat), first.length = second.length ∧
    Cache.get ((Cache.update (fun _ => none) 2 first).update 2 second) 2 ≠ some (offsetsFrom 0 second) :=
  ⟨[1, 1], [4, 4], rfl, by decide⟩

/-! ### C80: several function spaces and vectors -/

namespace Transfer

theorem count_iterateTuple (p : Nat) (next : List Op) (i n : Nat) (op : Op) :
    (iterateTuple p next i n).count op = next.count op +
      (match op with
        | .backup q j => if q = p ∧ i ≤ j ∧ j < i + n then 1 else 0
        | .replay q j => if q = p ∧ i ≤ j ∧ j < i + n then 1 else 0
        | .updateSpace q => if q = p then 1 else 0
        | _ => 0) := by
  induction n generalizing i with
  | zero =>
    rw [iterateTuple, List.count_append, List.count_singleton]
    cases op <;>
      simp only [beq_iff_eq, Op.backup.injEq, Op.replay.injEq, Op.updateSpace.injEq, reduceCtorEq, if_false] <;>
      (repeat' split) <;> omega
  | succ n ih =>
    rw [iterateTuple, List.count_cons, List.count_append, ih, List.count_singleton]
    cases op <;>
      simp only [beq_iff_eq, Op.backup.injEq, Op.replay.injEq, Op.updateSpace.injEq, reduceCtorEq, if_false] <;>
      (repeat' split) <;> omega

/-- The order of the operations: what is proved for packs and vectors together. -/
theorem iterateTuple_shape (p : Nat) (next : List Op) (i n : Nat) :
    iterateTuple p next i n =
      (List.range n).map (fun j => Op.backup p (i + j)) ++ next ++ [.updateSpace p] ++
        ((List.range n).map fun j => Op.replay p (i + j)).reverse := by
  induction n generalizing i with
  | zero => simp [iterateTuple]
  | succ n ih =>
    rw [iterateTuple, ih, List.range_succ_eq_map, List.map_cons, List.map_cons, List.map_map, List.map_map, List.reverse_cons]
    simp only [Function.comp_def, Nat.add_zero, List.append_assoc, List.cons_append]
    have h : ∀ j, i + 1 + j = i + j.succ := by intro j; omega
    simp only [h]

theorem before_inner {α : Type} {l : List α} {a b : α} (x y : List α) (h : Before l a b) : Before (x ++ l ++ y) a b := by
  obtain ⟨u, v, w, rfl⟩ := h
  exact ⟨x ++ u, v, w ++ y, by simp⟩

theorem before_of_mem {α : Type} {l m : List α} {a b : α} (ha : a ∈ l) (hb : b ∈ m) : Before (l ++ m) a b := by
  obtain ⟨u, v, rfl⟩ := List.append_of_mem ha
  obtain ⟨w, z, rfl⟩ := List.append_of_mem hb
  exact ⟨u, v ++ w, z, by simp⟩

theorem mem_adapt (p : Nat) (packs : List Nat) : Op.adapt ∈ iteratePacks p packs := by
  induction packs generalizing p with
  | nil => simp [iteratePacks]
  | cons n ns ih =>
    rw [iteratePacks, iterateTuple_shape]
    simp [ih (p + 1)]

theorem iteratePacks_order (p : Nat) (packs : List Nat) (k j n : Nat) (hk : packs[k]? = some n) (hj : j < n) :
    Before (iteratePacks p packs) (.backup (p + k) j) .adapt ∧ Before (iteratePacks p packs) .adapt (.updateSpace (p + k)) ∧
      Before (iteratePacks p packs) (.updateSpace (p + k)) (.replay (p + k) j) := by
  induction packs generalizing p k with
  | nil => simp at hk
  | cons m ns ih =>
    rw [iteratePacks, iterateTuple_shape]
    cases k with
    | zero =>
      simp only [List.getElem?_cons_zero, Option.some.injEq] at hk
      subst hk
      have hm := mem_adapt (p + 1) ns
      refine ⟨?_, ?_, ?_⟩
      · rw [List.append_assoc, List.append_assoc]
        exact before_of_mem (by simpa using hj) (by simp [hm])
      · rw [List.append_assoc]
        exact before_of_mem (by simp [hm]) (by simp)
      · exact before_of_mem (by simp) (by simpa using hj)
    | succ k =>
      simp only [List.getElem?_cons_succ] at hk
      have := ih (p + 1) k hk
      rw [show p + 1 + k = p + (k + 1) by omega] at this
      simp only [List.append_assoc]
      rw [← List.append_assoc]
      exact ⟨before_inner _ _ this.1 |> fun h => by simpa using h, before_inner _ _ this.2.1 |> fun h => by simpa using h,
        before_inner _ _ this.2.2 |> fun h => by simpa using h⟩

theorem count_iteratePacks (p : Nat) (packs : List Nat) (op : Op) :
    (iteratePacks p packs).count op =
      (match op with
        | .backup q j => if p ≤ q ∧ j < packs.getD (q - p) 0 then 1 else 0
        | .replay q j => if p ≤ q ∧ j < packs.getD (q - p) 0 then 1 else 0
        | .updateSpace q => if p ≤ q ∧ q < p + packs.length then 1 else 0
        | .adapt => 1
        | _ => 0) := by
  induction packs generalizing p with
  | nil =>
    rw [iteratePacks, List.count_singleton]
    cases op <;> simp
  | cons n ns ih =>
    rw [iteratePacks, count_iterateTuple, ih]
    have key : ∀ q j, (if p + 1 ≤ q ∧ j < ns.getD (q - (p + 1)) 0 then 1 else 0) + (if q = p ∧ 0 ≤ j ∧ j < 0 + n then 1 else 0) =
        if p ≤ q ∧ j < (n :: ns).getD (q - p) 0 then 1 else 0 := by
      intro q j
      by_cases hq : q = p
      · subst hq
        rw [if_neg (by omega), Nat.sub_self]
        simp
      · by_cases hlt : p + 1 ≤ q
        · obtain ⟨k, rfl⟩ := Nat.exists_eq_add_of_le hlt
          rw [show p + 1 + k - (p + 1) = k by omega, show p + 1 + k - p = k + 1 by omega]
          simp [hq]
          by_cases hj : j < ns[k]?.getD 0
          · rw [if_pos hj, if_pos ⟨by omega, hj⟩]
          · rw [if_neg hj, if_neg (by tauto)]
        · rw [if_neg (by omega), if_neg (by omega), if_neg (by omega)]
    cases op with
    | backup q j => exact key q j
    | replay q j => exact key q j
    | updateSpace q =>
      dsimp only
      rw [List.length_cons]
      split <;> split <;> split <;> omega
    | _ => simp

end Transfer

/-- **C80**. Adapting a grid with any number of function spaces with any numbers of vectors: the grid is prepared first, adapted exactly
once and cleaned up last; every vector is saved exactly once, before the grid is adapted; every space is updated exactly once, after
the grid; every vector is restored exactly once, after its space has been updated. -/
theorem C80_packs (packs : List Nat) :
    (adaptPacks packs).head? = some .preAdapt ∧ (adaptPacks packs).getLast? = some .postAdapt ∧
    (adaptPacks packs).count .adapt = 1 ∧ (adaptPacks packs).count .preAdapt = 1 ∧ (adaptPacks packs).count .postAdapt = 1 ∧
    (∀ k j, (adaptPacks packs).count (.backup k j) = if j < packs.getD k 0 then 1 else 0) ∧
    (∀ k j, (adaptPacks packs).count (.replay k j) = if j < packs.getD k 0 then 1 else 0) ∧
    (∀ k, (adaptPacks packs).count (.updateSpace k) = if k < packs.length then 1 else 0) ∧
    ∀ k j, j < packs.getD k 0 → Before (adaptPacks packs) (.backup k j) .adapt ∧
      Before (adaptPacks packs) .adapt (.updateSpace k) ∧ Before (adaptPacks packs) (.updateSpace k) (.replay k j) := by
  have hc := count_iteratePacks 0 packs
  refine ⟨rfl, ?_, ?_, ?_, ?_, ?_, ?_, ?_, ?_⟩
  · simp [adaptPacks, List.getLast?_cons]
  · simp [adaptPacks, List.count_cons, hc]
  · simp [adaptPacks, List.count_cons, hc]
  · simp [adaptPacks, List.count_cons, hc]
  · intro k j; simp [adaptPacks, List.count_cons, hc]
  · intro k j; simp [adaptPacks, List.count_cons, hc]
  · intro k; simp [adaptPacks, List.count_cons, hc]
  · intro k j hj
    have hk : packs[k]? = some (packs.getD k 0) := by
      cases h : packs[k]? with
      | none => simp [h] at hj
      | some n => simp [h]
    have := iteratePacks_order 0 packs k j _ hk hj
    rw [Nat.zero_add] at this
    have heq : adaptPacks packs = [.preAdapt] ++ iteratePacks 0 packs ++ [.postAdapt] := by simp [adaptPacks]
    rw [heq]
    exact ⟨before_inner _ _ this.1, before_inner _ _ this.2.1, before_inner _ _ this.2.2⟩

example : adaptPacks [2, 1] = [.preAdapt, .backup 0 0, .backup 0 1, .backup 1 0, .adapt, .updateSpace 1, .replay 1 0, .updateSpace 0,
    .replay 0 1, .replay 0 0, .postAdapt] := by decide

end Verif
