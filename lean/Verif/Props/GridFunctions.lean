import Verif.Proofs.GridFunctions
import Mathlib.Algebra.BigOperators.Group.List.Basic
import Mathlib.Algebra.Order.Ring.Rat
import Mathlib.Algebra.Field.Rat
import Mathlib.Algebra.Module.Defs
import Mathlib.Tactic.NormNum
/-
Properties of arithmetic with grid functions, of integrating and of probing them.
-/
namespace Verif

open GridFunctions GridFunctions.Spec

variable {K X T : Type} [Field K] [DecidableEq K]

/-! ### C158: arithmetic with grid functions -/

/-- C158. An expression of adapters whose construction succeeds has, at every point where no divisor vanishes, the components of the
expression of its operands. -/
theorem C158_value (value : Nat → T → X → List K) (root : K → K) (time : Nat → T) (x : X) (u : Nat → Nat → K) (e : Expr K) (d : Nat)
    (hd : e.dimRange = some d)
    (hl : ∀ q ∈ leaves e, (value q.1 (time q.1) x).length = q.2 ∧ ∀ c < q.2, (value q.1 (time q.1) x)[c]? = some (u q.1 c))
    (hr : Regular u root e) :
    ∃ y, e.evaluate value root time x = some y ∧ y.length = d ∧ ∀ c < d, y[c]? = some (component u root e c) :=
  (evaluate_main value root time x u e d hd hl).1 hr

/-- C158. At points where a divisor vanishes, the result is not a number. -/
theorem C158_singular (value : Nat → T → X → List K) (root : K → K) (time : Nat → T) (x : X) (u : Nat → Nat → K) (e : Expr K) (d : Nat)
    (hd : e.dimRange = some d)
    (hl : ∀ q ∈ leaves e, (value q.1 (time q.1) x).length = q.2 ∧ ∀ c < q.2, (value q.1 (time q.1) x)[c]? = some (u q.1 c))
    (hr : ¬ Regular u root e) : e.evaluate value root time x = none :=
  (evaluate_main value root time x u e d hd hl).2 hr

/-- C158. Setting the time of an expression sets the time of the functions it is made of and of no others. -/
theorem C158_setTime (t : T) (e : Expr K) (time : Nat → T) (i : Nat) :
    ((∃ d, (i, d) ∈ leaves e) → e.setTime t time i = t) ∧ ((¬ ∃ d, (i, d) ∈ leaves e) → e.setTime t time i = time i) :=
  setTime_eq t e time i

/-- C158. After setting the time, the expression has the values for that time, whatever times its operands had before. -/
theorem C158_time (value : Nat → T → X → List K) (root : K → K) (t : T) (x : X) (e : Expr K) (time : Nat → T) :
    e.evaluate value root (e.setTime t time) x = e.evaluate value root (fun _ => t) x :=
  evaluate_congr value root x e _ _ fun q hq => (setTime_eq t e time q.1).1 ⟨q.2, hq⟩

/-- C158. An expression that has no operand in common with another one is not affected by setting the time of the other one. -/
theorem C158_independent (value : Nat → T → X → List K) (root : K → K) (t : T) (x : X) (e e' : Expr K) (time : Nat → T)
    (h : ∀ q ∈ leaves e', ∀ q' ∈ leaves e, q.1 ≠ q'.1) :
    e'.evaluate value root (e.setTime t time) x = e'.evaluate value root time x :=
  evaluate_congr value root x e' _ _ fun q hq => (setTime_eq t e time q.1).2 fun ⟨d, hd⟩ => h q hq (q.1, d) hd rfl

/-- C158. Expressions that share an operand, however, do not have independent times. -/
theorem C158_shared : ∃ (value : Nat → ℚ → Unit → List ℚ) (e e' : Expr ℚ) (time : Nat → ℚ) (t : ℚ),
    e'.evaluate value id (e.setTime t time) () ≠ e'.evaluate value id time () := by
  refine ⟨fun _ t _ => [t], .sqr (.leaf 0 1), .scaled 2 (.leaf 0 1), fun _ => 0, 1, ?_⟩
  simp [Expr.evaluate, Expr.setTime]

omit [Field K] [DecidableEq K] in
/-- C158. Selecting components is rejected exactly if there is no such component. -/
theorem C158_select (remap : List Nat) (e : Expr K) (d : Nat) (hd : e.dimRange = some d) :
    ((∀ r ∈ remap, r < d) → (Expr.select remap e).dimRange = some remap.length) ∧
      ((∃ r ∈ remap, d ≤ r) → (Expr.select remap e).dimRange = none) := by
  simp only [Expr.dimRange, hd, Option.bind_eq_bind, Option.bind_some]
  refine ⟨fun h => if_pos (by simpa using h), fun ⟨r, hr, h⟩ => if_neg ?_⟩
  intro h'
  have : r < d := by simpa using (List.all_eq_true.mp h') r hr
  omega

omit [Field K] [DecidableEq K] in
/-- C158. With a first component, the selection is a consecutive range. -/
theorem C158_consecutive (first dimR : Nat) (e : Expr K) (d : Nat) (hd : e.dimRange = some d) (h0 : 0 < dimR) :
    ((Expr.select (consecutive first dimR) e).dimRange = some dimR ↔ first + dimR ≤ d) ∧
      ∀ c < dimR, (consecutive first dimR).getD c 0 = first + c := by
  have hlen : (consecutive first dimR).length = dimR := by simp [consecutive]
  refine ⟨⟨?_, ?_⟩, ?_⟩
  · intro h
    by_contra hlt
    have := (C158_select (consecutive first dimR) e d hd).2 ⟨first + (dimR - 1), by
      refine List.mem_map.mpr ⟨dimR - 1, by simp; omega, rfl⟩, by omega⟩
    rw [this] at h
    cases h
  · intro h
    rw [(C158_select (consecutive first dimR) e d hd).1, hlen]
    intro r hr
    obtain ⟨c, hc, rfl⟩ := List.mem_map.mp hr
    simp only [List.mem_range] at hc
    omega
  · intro c hc
    rw [List.getD_eq_getElem _ _ (by omega)]
    simp [consecutive]

/-! The expression `sqrt((u - v)²) / w` for vector-valued `u` and `v`. -/

example : (Expr.division (.sqrt (.sqr (.minus (.leaf 0 2) (.leaf 1 2)))) (.leaf 2 1) : Expr ℚ).dimRange = some 1 := by
  simp [Expr.dimRange]

example : Regular (fun i c => (i + c + 1 : ℚ)) id (.division (.sqrt (.sqr (.minus (.leaf 0 2) (.leaf 1 2)))) (.leaf 2 1)) := by
  simp [Regular, component]
  norm_num

example : (Expr.division (.sqr (.minus (.leaf 0 2) (.leaf 1 2))) (.leaf 2 1) : Expr ℚ).evaluate
    (fun i (t : ℚ) (_ : Unit) => if i = 0 then [5, 7] else if i = 1 then [1, t] else [5]) id (fun _ => 4) () = some [5] := by
  simp [Expr.evaluate, dot]
  norm_num

/-- A vector and a scalar. -/
example : (Expr.product (.leaf 0 2) (.leaf 1 1) : Expr ℚ).evaluate
    (fun i (_ : ℚ) (_ : Unit) => if i = 0 then [5, 7] else [3]) id (fun _ => 4) () = some [15, 21] := by
  simp [Expr.evaluate, Expr.dimRange]
  norm_num

/-! ### C159: integration -/

omit [DecidableEq K] in
/-- C159. The integral over the grid is the sum of the integrals on the processes, if each element is interior on one process, whatever the
variables for the results contained before. -/
theorem C159_integrate {L V : Type} [AddCommGroup V] [SMul K V] (evaluate : Cell L K → L → V) (grid : List (Cell L K))
    (processes : List (List (Cell L K))) (sum : List (Cell L K) → V)
    (h : (processes.flatten.filter fun c => c.interior).Perm grid) :
    (processes.map fun cells => integrate cells evaluate (sum cells)).sum = (grid.map (quadrature evaluate)).sum := by
  rw [← (h.map (quadrature evaluate)).sum_eq]
  clear h
  induction processes with
  | nil => rfl
  | cons cells ps ih =>
    rw [List.map_cons, List.sum_cons, ih, integrate_eq, List.flatten_cons, List.filter_append, List.map_append, List.sum_append]
    rfl

omit [DecidableEq K] in
/-- C159. If the quadrature rule is exact for the function on each element, this is the integral. -/
theorem C159_exact {L V : Type} [AddCommGroup V] [SMul K V] (evaluate : Cell L K → L → V) (integral : Cell L K → V) (grid : List (Cell L K))
    (processes : List (List (Cell L K))) (sum : List (Cell L K) → V) (h : (processes.flatten.filter fun c => c.interior).Perm grid)
    (hexact : ∀ c ∈ grid, quadrature evaluate c = integral c) :
    (processes.map fun cells => integrate cells evaluate (sum cells)).sum = (grid.map integral).sum := by
  rw [C159_integrate evaluate grid processes sum h, List.map_congr_left hexact]

/-! Two processes with overlap: the elements with the weights 1 and 2 are interior on one process each. -/

example : ([[⟨true, [((), 1)], fun _ => 1⟩, ⟨false, [((), 2)], fun _ => 1⟩],
      [⟨false, [((), 1)], fun _ => 1⟩, ⟨true, [((), 2)], fun _ => 1⟩]].map
    fun cells : List (Cell Unit ℚ) => integrate cells (fun _ _ => (10 : ℚ)) 99).sum = 30 := by
  simp [integrate]
  norm_num

example : ((([[⟨true, [((), 1)], fun _ => 1⟩, ⟨false, [((), 2)], fun _ => 1⟩],
      [⟨false, [((), 1)], fun _ => 1⟩, ⟨true, [((), 2)], fun _ => 1⟩]] : List (List (Cell Unit ℚ))).flatten.filter fun c => c.interior).Perm
    [⟨true, [((), 2)], fun _ => 1⟩, ⟨true, [((), 1)], fun _ => 1⟩]) := by
  simp only [List.flatten_cons, List.flatten_nil, List.append_nil, List.cons_append, List.nil_append, List.filter_cons]
  exact List.Perm.swap _ _ _

/-! ### C160: probes -/

private theorem mapM_some_map {A B : Type} (g : A → Option B) (f : A → B) : ∀ l : List A, (∀ a ∈ l, g a = some (f a)) → l.mapM g = some (l.map f) := by
  intro l
  induction l with
  | nil => intro _; rfl
  | cons a l ih =>
    intro h
    rw [List.mapM_cons, h a (by simp), ih fun a ha => h a (by simp [ha])]
    rfl

omit [Field K] [DecidableEq K] in
private theorem search_get {E L : Type} (found : List (Found E)) (toLocal : E → L) (p : Probe E L) (r : Nat)
    (h : (search found toLocal)[r]? = some p) :
    r < found.length ∧ p.evalRank = evalRank found ∧ (r = evalRank found → ∀ e b, found[r]? = some (some (e, b)) → p.e = some e ∧ p.xl = some (toLocal e)) := by
  unfold search at h
  simp only at h
  rw [List.getElem?_map] at h
  obtain ⟨q, h1, h2⟩ := Option.map_eq_some_iff.mp h
  rw [List.getElem?_zipIdx] at h1
  obtain ⟨f, h3, h4⟩ := Option.map_eq_some_iff.mp h1
  subst h4
  simp only [Nat.zero_add] at h2
  have hlt : r < found.length := by
    by_contra hge
    rw [List.getElem?_eq_none (by omega)] at h3
    cases h3
  refine ⟨hlt, ?_, ?_⟩
  · rw [← h2]
    split <;> rfl
  · intro hr e b he
    rw [h3] at he
    cases he
    rw [← h2, if_pos (by exact hr)]
    exact ⟨rfl, rfl⟩

/-- C160. A probe gives the same result on all processes, without deadlock: the value on the smallest rank with an interior element that
contains the point, or NaN if there is none. -/
theorem C160_probe {E L V : Type} (found : List (Found E)) (toLocal : E → L) (evaluate : Nat → E → L → V) :
    (∃ r e, HasInterior found r e ∧ (∀ r' e', HasInterior found r' e' → r ≤ r') ∧
      evalAll evaluate (search found toLocal) = some (List.replicate found.length (some (evaluate r e (toLocal e))))) ∨
    ((∀ r e, ¬ HasInterior found r e) ∧ evalAll evaluate (search found toLocal) = some (List.replicate found.length none)) := by
  have hlen : (search found toLocal).length = found.length := by simp [search]
  rcases evalRank_spec found with ⟨h1, h2⟩ | ⟨h1, e, h2⟩
  · right
    refine ⟨h2, ?_⟩
    unfold evalAll
    rw [mapM_some_map _ (fun _ => Action.nan)]
    · simp [hlen, List.map_const']
    · rintro ⟨p, r⟩ hq
      have hp := search_get found toLocal p r (List.mem_zipIdx_iff_getElem?.mp hq)
      unfold action
      rw [if_pos (by rw [hp.2.1, h1, hlen])]
  · left
    refine ⟨evalRank found, e, h2, fun r' e' h' => evalRank_le found r' e' h', ?_⟩
    have hn : 0 < found.length := by omega
    unfold evalAll
    rw [mapM_some_map _ fun q : Probe E L × Nat => Action.broadcast (evalRank found)
      (if q.2 = evalRank found then some (evaluate (evalRank found) e (toLocal e)) else none)]
    · simp only [Option.bind_eq_bind, Option.bind_some, List.map_map]
      have hhead : (List.map (fun q : Probe E L × Nat => Action.broadcast (evalRank found)
          (if q.2 = evalRank found then some (evaluate (evalRank found) e (toLocal e)) else none)) (search found toLocal).zipIdx).head?
          = some (Action.broadcast (evalRank found) (if 0 = evalRank found then some (evaluate (evalRank found) e (toLocal e)) else none)) := by
        rw [List.head?_eq_getElem?, List.getElem?_map, List.getElem?_zipIdx, List.getElem?_eq_getElem (by omega)]
        rfl
      have hroot : (List.map (fun q : Probe E L × Nat => Action.broadcast (evalRank found)
          (if q.2 = evalRank found then some (evaluate (evalRank found) e (toLocal e)) else none)) (search found toLocal).zipIdx)[evalRank found]?
          = some (Action.broadcast (evalRank found) (some (evaluate (evalRank found) e (toLocal e)))) := by
        rw [List.getElem?_map, List.getElem?_zipIdx, List.getElem?_eq_getElem (by omega)]
        simp
      rw [if_neg ?_]
      · rw [hhead]
        simp only [Option.bind_some]
        rw [if_pos (by simp), hroot]
        simp [hlen, List.map_const', Function.comp_def]
      · intro hall
        have := (List.all_eq_true.mp hall) _ (List.mem_of_getElem? hroot)
        simp at this
    · rintro ⟨p, r⟩ hq
      have hp := search_get found toLocal p r (List.mem_zipIdx_iff_getElem?.mp hq)
      unfold action
      rw [if_neg (by rw [hp.2.1, hlen]; omega)]
      by_cases hr : r = evalRank found
      · have hp' := hp.2.2 hr e true (by rw [hr]; exact h2)
        rw [if_pos (by rw [hp.2.1]; exact hr)]
        simp only [hp'.1, hp'.2, hp.2.1, hr, Option.bind_eq_bind, Option.bind_some, if_true]
      · rw [if_neg (by rw [hp.2.1]; exact hr)]
        simp only [hp.2.1, if_neg hr]

/-- C160. For a function of the global coordinates, every process gets its value at the point, if the point is in an interior element. -/
theorem C160_global {E L G V : Type} (found : List (Found E)) (toLocal : E → L) (toGlobal : E → L → G) (u : G → V) (xg : G)
    (hfound : ∀ (r : Nat) (e : E) (b : Bool), found[r]? = some (some (e, b)) → toGlobal e (toLocal e) = xg) (hin : ∃ r e, HasInterior found r e) :
    evalAll (fun _ e l => u (toGlobal e l)) (search found toLocal) = some (List.replicate found.length (some (u xg))) := by
  rcases C160_probe found toLocal fun _ e l => u (toGlobal e l) with ⟨r, e, h1, _, h3⟩ | ⟨h, _⟩
  · rw [h3, hfound r e true h1]
  · obtain ⟨r, e, h'⟩ := hin
    exact absurd h' (h r e)

/-! Four processes; the point is in an overlap element of process 1, and on the common boundary of interior elements of the processes 2
and 3. -/

example : evalAll (fun r (e : Nat) (_ : Unit) => (r, e)) (search [none, some (7, false), some (8, true), some (9, true)] fun _ => ())
    = some [some (2, 8), some (2, 8), some (2, 8), some (2, 8)] := by decide

example : HasInterior [none, some (7, false), some (8, true), some (9, true)] 2 8 := rfl

end Verif
