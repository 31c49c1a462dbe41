import Verif.Proofs.FastDG
/-
Helpers for the Jacobian and pattern theorems of `Verif.Props.FastDG`.
-/
namespace Verif.FastDG
open GridAssembler

variable {K : Type}

theorem matSum_append [AddMonoid K] (s : MAcc K → K) (a b : List ((Nat × Nat) × MAcc K)) (r i c j : Nat) :
    matSum s (a ++ b) r i c j = matSum s a r i c j + matSum s b r i c j := by
  simp [matSum, List.filter_append, List.map_append, List.sum_append]

theorem matSum_cons [AddMonoid K] (s : MAcc K → K) (p : (Nat × Nat) × MAcc K) (l : List ((Nat × Nat) × MAcc K)) (r i c j : Nat) :
    matSum s (p :: l) r i c j = (if p.1 = (r, c) ∧ p.2.row = i ∧ p.2.col = j then s p.2 else 0) + matSum s l r i c j := by
  unfold matSum
  rw [List.filter_cons]
  by_cases h : p.1 = (r, c) ∧ p.2.row = i ∧ p.2.col = j
  · rw [if_pos (by simpa using h), if_pos h]; simp
  · rw [if_neg (by simpa using h), if_neg h]; simp

theorem accAliasedMat_apply [Semiring K] (w : K) (l : List ((Nat × Nat) × MAcc K)) (A : Mat K) (r i c j : Nat) :
    accAliasedMat w l A r i c j = A r i c j + matSum (matScale w) l r i c j := by
  unfold accAliasedMat
  induction l generalizing A with
  | nil => simp [matSum]
  | cons p l ih =>
    rw [List.foldl_cons, ih, matSum_cons]
    obtain ⟨⟨pr, pc⟩, a⟩ := p
    by_cases h : (r = pr ∧ i = a.row) ∧ c = pc ∧ j = a.col
    · rw [if_pos h, if_pos (by simp [h.1.1, h.1.2, h.2.1, h.2.2]), add_assoc]
    · rw [if_neg h, if_neg, zero_add]
      rintro ⟨h1, h2, h3⟩
      rw [Prod.mk.injEq] at h1
      exact h ⟨⟨h1.1.symm, h2.symm⟩, h1.2.symm, h3.symm⟩

/-- Sum of the accumulations into an entry of a local matrix. -/
def localSum [Add K] [Zero K] (s : MAcc K → K) (l : List (MAcc K)) (i j : Nat) : K :=
  ((l.filter fun a => decide (a.row = i ∧ a.col = j)).map s).sum

theorem accLocalMat_apply [Semiring K] (w : K) (l : List (MAcc K)) (a : Nat → Nat → K) (i j : Nat) :
    accLocalMat w l a i j = a i j + localSum (matScale w) l i j := by
  unfold accLocalMat localSum
  induction l generalizing a with
  | nil => simp
  | cons p l ih =>
    rw [List.foldl_cons, ih, List.filter_cons]
    by_cases h : i = p.row ∧ j = p.col
    · rw [if_pos h, if_pos (by simp [h.1, h.2])]
      simp [add_assoc]
    · rw [if_neg h, if_neg (by simpa using fun h1 h2 => h ⟨h1.symm, h2.symm⟩)]

/-- A local matrix as a contribution to the global one. -/
def onPair [Zero K] (r0 c0 : Nat) (a : Nat → Nat → K) (r i c j : Nat) : K := if (r0, c0) = (r, c) then a i j else 0

theorem matSum_pair [Semiring K] (s : MAcc K → K) (l : List (MAcc K)) (r0 c0 r i c j : Nat) :
    matSum s (l.map fun a => ((r0, c0), a)) r i c j = onPair r0 c0 (localSum s l) r i c j := by
  induction l with
  | nil => simp [matSum, onPair, localSum]
  | cons a l ih =>
    rw [List.map_cons, matSum_cons, ih]
    unfold onPair localSum
    by_cases h : (r0, c0) = (r, c)
    · rw [if_pos h, if_pos h, List.filter_cons]
      by_cases h2 : a.row = i ∧ a.col = j
      · rw [if_pos ⟨h, h2⟩, if_pos (by simpa using h2)]; simp
      · rw [if_neg (fun hh => h2 hh.2), if_neg (by simpa using h2)]; simp
    · rw [if_neg (fun hh => h hh.1), if_neg h, if_neg h, zero_add]

theorem onPair_acc [Semiring K] (w : K) (r0 c0 : Nat) (l : List (MAcc K)) (a : Nat → Nat → K) (r i c j : Nat) :
    onPair r0 c0 (accLocalMat w l a) r i c j = onPair r0 c0 a r i c j + onPair r0 c0 (localSum (matScale w) l) r i c j := by
  unfold onPair
  by_cases h : (r0, c0) = (r, c)
  · rw [if_pos h, if_pos h, if_pos h, accLocalMat_apply]
  · rw [if_neg h, if_neg h, if_neg h, add_zero]

theorem onPair_zero [Zero K] (r0 c0 r i c j : Nat) : onPair (K := K) r0 c0 (fun _ _ => 0) r i c j = 0 := by simp [onPair]

/-- The rows and columns an accumulation of a face method is addressed to. -/
def pairCells (c n : Nat) (q : Pair) : Nat × Nat :=
  (if q = .ss ∨ q = .sn then c else n, if q = .ss ∨ q = .ns then c else n)

theorem localSum_cons [AddMonoid K] (s : MAcc K → K) (a : MAcc K) (l : List (MAcc K)) (i j : Nat) :
    localSum s (a :: l) i j = (if a.row = i ∧ a.col = j then s a else 0) + localSum s l i j := by
  unfold localSum
  rw [List.filter_cons]
  by_cases h : a.row = i ∧ a.col = j
  · rw [if_pos (by simpa using h), if_pos h]; simp
  · rw [if_neg (by simpa using h), if_neg h]; simp

theorem onPair_cons [AddMonoid K] (s : MAcc K → K) (r0 c0 : Nat) (a : MAcc K) (l : List (MAcc K)) (r i c j : Nat) :
    onPair r0 c0 (localSum s (a :: l)) r i c j =
      (if (r0, c0) = (r, c) ∧ a.row = i ∧ a.col = j then s a else 0) + onPair r0 c0 (localSum s l) r i c j := by
  unfold onPair
  by_cases h : (r0, c0) = (r, c)
  · rw [if_pos h, if_pos h, localSum_cons]
    by_cases h2 : a.row = i ∧ a.col = j
    · rw [if_pos h2, if_pos ⟨h, h2⟩]
    · rw [if_neg h2, if_neg (fun hh => h2 hh.2)]
  · rw [if_neg h, if_neg h, if_neg (fun hh => h hh.1), zero_add]

theorem shuffle_ns [Semiring K] (x a b c d : K) : x + (a + (b + (c + d))) = a + (b + ((x + c) + d)) := by
  rw [add_left_comm x a, add_left_comm x b, add_assoc x c]

theorem shuffle_nn [Semiring K] (x a b c d : K) : x + (a + (b + (c + d))) = a + (b + (c + (x + d))) := by
  rw [add_left_comm x a, add_left_comm x b, add_left_comm x c]

theorem matSum_pairs [Semiring K] (s : MAcc K → K) (l : List (Pair × MAcc K)) (c n r i c' j : Nat) :
    matSum s (l.map fun p => (pairCells c n p.1, p.2)) r i c' j =
      onPair c c (localSum s (ofPair .ss l)) r i c' j + (onPair c n (localSum s (ofPair .sn l)) r i c' j +
        (onPair n c (localSum s (ofPair .ns l)) r i c' j + onPair n n (localSum s (ofPair .nn l)) r i c' j)) := by
  induction l with
  | nil => simp [matSum, ofPair, localSum, onPair]
  | cons p l ih =>
    obtain ⟨q, a⟩ := p
    rw [List.map_cons, matSum_cons, ih]
    cases q
    · have h1 : ofPair .ss ((Pair.ss, a) :: l) = a :: ofPair .ss l := by simp [ofPair]
      have h2 : ofPair .sn ((Pair.ss, a) :: l) = ofPair .sn l := by simp [ofPair]
      have h3 : ofPair .ns ((Pair.ss, a) :: l) = ofPair .ns l := by simp [ofPair]
      have h4 : ofPair .nn ((Pair.ss, a) :: l) = ofPair .nn l := by simp [ofPair]
      rw [h1, h2, h3, h4, onPair_cons]
      simp only [pairCells, true_or, if_true]
      rw [add_assoc]
    · have h1 : ofPair .ss ((Pair.sn, a) :: l) = ofPair .ss l := by simp [ofPair]
      have h2 : ofPair .sn ((Pair.sn, a) :: l) = a :: ofPair .sn l := by simp [ofPair]
      have h3 : ofPair .ns ((Pair.sn, a) :: l) = ofPair .ns l := by simp [ofPair]
      have h4 : ofPair .nn ((Pair.sn, a) :: l) = ofPair .nn l := by simp [ofPair]
      rw [h1, h2, h3, h4, onPair_cons]
      simp only [pairCells, reduceCtorEq, or_true, if_true, or_false, if_false]
      rw [add_left_comm, add_assoc]
    · have h1 : ofPair .ss ((Pair.ns, a) :: l) = ofPair .ss l := by simp [ofPair]
      have h2 : ofPair .sn ((Pair.ns, a) :: l) = ofPair .sn l := by simp [ofPair]
      have h3 : ofPair .ns ((Pair.ns, a) :: l) = a :: ofPair .ns l := by simp [ofPair]
      have h4 : ofPair .nn ((Pair.ns, a) :: l) = ofPair .nn l := by simp [ofPair]
      rw [h1, h2, h3, h4, onPair_cons]
      simp only [pairCells, reduceCtorEq, or_true, if_true, or_false, if_false]
      by_cases h : (n, c) = (r, c') ∧ a.row = i ∧ a.col = j
      · rw [if_pos h]; exact shuffle_ns _ _ _ _ _
      · rw [if_neg h, zero_add, zero_add]
    · have h1 : ofPair .ss ((Pair.nn, a) :: l) = ofPair .ss l := by simp [ofPair]
      have h2 : ofPair .sn ((Pair.nn, a) :: l) = ofPair .sn l := by simp [ofPair]
      have h3 : ofPair .ns ((Pair.nn, a) :: l) = ofPair .ns l := by simp [ofPair]
      have h4 : ofPair .nn ((Pair.nn, a) :: l) = a :: ofPair .nn l := by simp [ofPair]
      rw [h1, h2, h3, h4, onPair_cons]
      simp only [pairCells, reduceCtorEq, or_false, if_false]
      by_cases h : (n, n) = (r, c') ∧ a.row = i ∧ a.col = j
      · rw [if_pos h]; exact shuffle_nn _ _ _ _ _
      · rw [if_neg h, zero_add, zero_add]

/-! Constrained rows -/

theorem clearRows_apply [Semiring K] (cons : List (Nat × Nat)) (A : Mat K) (r i c j : Nat) :
    cons.foldl (fun A d => clearRow d A) A r i c j =
      if (r, i) ∈ cons then (if c = r ∧ j = i then 1 else 0) else A r i c j := by
  induction cons generalizing A with
  | nil => simp
  | cons d cons ih =>
    rw [List.foldl_cons, ih]
    by_cases h : (r, i) ∈ cons
    · rw [if_pos h, if_pos (List.mem_cons_of_mem _ h)]
    · rw [if_neg h]
      unfold clearRow
      by_cases h2 : r = d.1 ∧ i = d.2
      · have hm : (r, i) ∈ d :: cons := by rw [h2.1, h2.2]; exact List.mem_cons_self
        rw [if_pos h2, if_pos hm, ← h2.1, ← h2.2]
      · rw [if_neg h2, if_neg]
        intro hm
        rcases List.mem_cons.mp hm with hm | hm
        · exact h2 ⟨by rw [← hm], by rw [← hm]⟩
        · exact h hm

theorem clearRowBlocks_apply [Semiring K] (cons : List (Nat × Nat)) (A : Mat K) (r i c j : Nat) :
    cons.foldl (fun A d => clearRowBlock d A) A r i c j =
      if r ∈ cons.map Prod.fst then (if c = r ∧ j = i then 1 else 0) else A r i c j := by
  induction cons generalizing A with
  | nil => simp
  | cons d cons ih =>
    rw [List.foldl_cons, ih, List.map_cons]
    by_cases h : r ∈ cons.map Prod.fst
    · rw [if_pos h, if_pos (List.mem_cons_of_mem _ h)]
    · rw [if_neg h]
      unfold clearRowBlock
      by_cases h2 : r = d.1
      · have hm : r ∈ d.1 :: cons.map Prod.fst := by rw [h2]; exact List.mem_cons_self
        rw [if_pos h2, if_pos hm, ← h2]
      · rw [if_neg h2, if_neg]
        intro hm
        rcases List.mem_cons.mp hm with hm | hm
        · exact h2 hm
        · exact h hm

/-! Fast Jacobian -/

/-- Where the views point in a state of the protocol. -/
def JBound (p : Protocol) (s : JFast K) : Prop :=
  match p with
  | .start | .ready | .done | .vBound _ => True
  | .uvBound c | .loaded c | .vOutside c _ => s.xl = some c ∧ s.ss = some (c, c)
  | .uvOutside c n | .outsideLoaded c n => (s.xl = some c ∧ s.ss = some (c, c)) ∧ s.xn = some n ∧ s.sn = some (c, n) ∧
      s.ns = some (n, c) ∧ s.nn = some (n, n)

/-- The matrix after the accumulations `l`. -/
def JFastMem [Semiring K] (cons : List (Nat × Nat)) (w : K) (A0 : Mat K) (p : Protocol) (l : List ((Nat × Nat) × MAcc K))
    (A : Mat K) : Prop :=
  ∀ r i c j, A r i c j = if p = .done ∧ r ∈ cons.map Prod.fst then (if c = r ∧ j = i then 1 else 0)
    else A0 r i c j + matSum (matScale w) l r i c j

theorem jfastMem_id [Semiring K] {cons : List (Nat × Nat)} {w : K} {A0 : Mat K} {p p' : Protocol}
    {l : List ((Nat × Nat) × MAcc K)} {A : Mat K} (h : JFastMem cons w A0 p l A) (hp : p ≠ .done) (hp' : p' ≠ .done) :
    JFastMem cons w A0 p' (l ++ []) A := by
  intro r i c j
  rw [h r i c j, if_neg (fun hh => hp hh.1), if_neg (fun hh => hp' hh.1), List.append_nil]

theorem jfastMem_acc [Semiring K] {cons : List (Nat × Nat)} {w : K} {A0 : Mat K} {p p' : Protocol}
    {l : List ((Nat × Nat) × MAcc K)} {A : Mat K} (h : JFastMem cons w A0 p l A) (hp : p ≠ .done) (hp' : p' ≠ .done)
    (calls : List ((Nat × Nat) × MAcc K)) : JFastMem cons w A0 p' (l ++ calls) (accAliasedMat w calls A) := by
  intro r i c j
  rw [accAliasedMat_apply, h r i c j, if_neg (fun hh => hp hh.1), if_neg (fun hh => hp' hh.1), matSum_append, add_assoc]

/-- What `Covers` says about one call. -/
def CoversEvent (pat : Nat → Nat → Bool) (e : Event) : Prop :=
  (e.kind = .onBindLFSUV → pat e.cell e.cell = true) ∧
    (e.kind = .onBindLFSUVOutside → pat e.cell e.outside = true ∧ pat e.outside e.cell = true ∧ pat e.outside e.outside = true)

theorem jfast_step [Semiring K] (lop : JLop K) (pat : Nat → Nat → Bool) (cons : List (Nat × Nat)) (w : K) (x : Vec K) (A0 : Mat K)
    (p p' : Protocol) (e : Event) (hp : p.step e = some p') (hcov : CoversEvent pat e) (l : List ((Nat × Nat) × MAcc K))
    (s : JFast K) (hb : JBound p s) (hm : JFastMem cons w A0 p l s.mat) :
    ∃ s', JFast.step lop pat cons w x s e = some s' ∧ JBound p' s' ∧ JFastMem cons w A0 p' (l ++ matContributions lop x e) s'.mat := by
  cases trans_of_step hp
  case pre => exact ⟨_, rfl, trivial, by simpa [matContributions] using jfastMem_id hm (by simp) (by simp)⟩
  case post c f i o =>
    have hc : matContributions lop x ⟨.postAssembly, c, f, i, o⟩ = [] := by simp [matContributions]
    rw [hc, List.append_nil]
    refine ⟨_, rfl, trivial, fun r i c j => ?_⟩
    change cons.foldl (fun A d => clearRowBlock d A) s.mat r i c j = _
    rw [clearRowBlocks_apply, hm r i c j]
    by_cases hr : r ∈ cons.map Prod.fst
    · rw [if_pos hr, if_pos (c := Protocol.done = .done ∧ r ∈ cons.map Prod.fst) ⟨rfl, hr⟩]
    · rw [if_neg hr, if_neg (fun hh => hr hh.2), if_neg (fun hh => hr hh.2)]
  case bindV => exact ⟨_, rfl, trivial, by simpa [matContributions] using jfastMem_id hm (by simp) (by simp)⟩
  case vVolume => exact ⟨_, rfl, trivial, by simpa [matContributions] using jfastMem_id hm (by simp) (by simp)⟩
  case bindUV c f i o =>
    have h1 : pat c c = true := hcov.1 rfl
    have hc : matContributions lop x ⟨.onBindLFSUV, c, f, i, o⟩ = [] := by simp [matContributions]
    rw [hc]
    refine ⟨{ s with xl := some c, ss := some (c, c) }, ?_, ⟨rfl, rfl⟩, jfastMem_id hm (by simp) (by simp)⟩
    simp [JFast.step, blockOf, h1]
  case unbindV => exact ⟨_, rfl, trivial, by simpa [matContributions] using jfastMem_id hm (by simp) (by simp)⟩
  case load => exact ⟨_, rfl, hb, by simpa [matContributions] using jfastMem_id hm (by simp) (by simp)⟩
  case unbindUV => exact ⟨_, rfl, trivial, by simpa [matContributions] using jfastMem_id hm (by simp) (by simp)⟩
  case bindVOut => exact ⟨_, rfl, hb, by simpa [matContributions] using jfastMem_id hm (by simp) (by simp)⟩
  case vSkeleton => exact ⟨_, rfl, hb, by simpa [matContributions] using jfastMem_id hm (by simp) (by simp)⟩
  case bindUVOut c f i n =>
    obtain ⟨h1, h2, h3⟩ := hcov.2 rfl
    dsimp only at h1 h2 h3
    have hc : matContributions lop x ⟨.onBindLFSUVOutside, c, f, i, n⟩ = [] := by simp [matContributions]
    rw [hc]
    refine ⟨{ s with xn := some n, sn := some (c, n), ns := some (n, c), nn := some (n, n) }, ?_, ⟨hb, rfl, rfl, rfl, rfl⟩,
      jfastMem_id hm (by simp) (by simp)⟩
    simp [JFast.step, blockOf, h1, h2, h3]
  case loadOut => exact ⟨_, rfl, hb, by simpa [matContributions] using jfastMem_id hm (by simp) (by simp)⟩
  case unbindUVOut => exact ⟨_, rfl, hb.1, by simpa [matContributions] using jfastMem_id hm (by simp) (by simp)⟩
  case unbindVOut => exact ⟨_, rfl, hb, by simpa [matContributions] using jfastMem_id hm (by simp) (by simp)⟩
  case processor k hk c f i o =>
    rcases hk with rfl | rfl <;>
    exact ⟨_, rfl, hb, by simpa [matContributions] using jfastMem_id hm (by simp) (by simp)⟩
  case cellV k hk c f i o =>
    rcases hk with rfl | rfl <;>
    exact ⟨_, rfl, hb, by simpa [matContributions] using jfastMem_id hm (by simp) (by simp)⟩
  case cellUV k hk c f i o =>
    obtain ⟨h1, h2⟩ := hb
    by_cases hf : lop.flag k = true
    · have hc : matContributions lop x ⟨k, c, f, i, o⟩ = (lop.jacobian ⟨k, c, f, i, o⟩ (x c)).map fun a => ((c, c), a) := by
        rcases hk with rfl | rfl | rfl <;> simp [matContributions, hf]
      rw [hc]
      refine ⟨{ s with mat := accAliasedMat w ((lop.jacobian ⟨k, c, f, i, o⟩ (x c)).map fun a => ((c, c), a)) s.mat },
        ?_, ⟨h1, h2⟩, jfastMem_acc hm (by simp) (by simp) _⟩
      rcases hk with rfl | rfl | rfl <;> simp only [JFast.step, hf, if_true, h1, h2, Option.map_some, Option.bind_some]
    · have hc : matContributions lop x ⟨k, c, f, i, o⟩ = [] := by simp [matContributions, hf]
      rw [hc]
      refine ⟨s, ?_, ⟨h1, h2⟩, jfastMem_id hm (by simp) (by simp)⟩
      rcases hk with rfl | rfl | rfl <;> simp [JFast.step, hf]
  case uvSkeleton c f i n =>
    obtain ⟨⟨h1, h2⟩, h3, h4, h5, h6⟩ := hb
    by_cases hf : lop.flag .assembleUVSkeleton = true
    · have hc : matContributions lop x ⟨.assembleUVSkeleton, c, f, i, n⟩ =
          (lop.jacobianSkeleton ⟨.assembleUVSkeleton, c, f, i, n⟩ (x c) (x n)).map fun p =>
            (match p.1 with | .ss => (c, c) | .sn => (c, n) | .ns => (n, c) | .nn => (n, n), p.2) := by
        simp only [matContributions, hf, if_true]
        apply List.map_congr_left
        rintro ⟨q, a⟩ _
        cases q <;> simp
      rw [hc]
      refine ⟨{ s with mat := accAliasedMat w ((lop.jacobianSkeleton ⟨.assembleUVSkeleton, c, f, i, n⟩ (x c) (x n)).map fun p =>
            (match p.1 with | .ss => (c, c) | .sn => (c, n) | .ns => (n, c) | .nn => (n, n), p.2)) s.mat },
        ?_, ⟨⟨h1, h2⟩, h3, h4, h5, h6⟩, jfastMem_acc hm (by simp) (by simp) _⟩
      simp only [JFast.step, hf, if_true, h1, h2, h3, h4, h5, h6, Option.map_some, Option.bind_some]
      rfl
    · have hc : matContributions lop x ⟨.assembleUVSkeleton, c, f, i, n⟩ = [] := by simp [matContributions, hf]
      rw [hc]
      exact ⟨s, by simp [JFast.step, hf], ⟨⟨h1, h2⟩, h3, h4, h5, h6⟩, jfastMem_id hm (by simp) (by simp)⟩

theorem jfast_run [Semiring K] (lop : JLop K) (pat : Nat → Nat → Bool) (cons : List (Nat × Nat)) (w : K) (x : Vec K) (A0 : Mat K)
    (es : List Event) (hcov : ∀ e ∈ es, CoversEvent pat e) : ∀ (p p' : Protocol), es.foldlM Protocol.step p = some p' →
    ∀ (l : List ((Nat × Nat) × MAcc K)) (s : JFast K), JBound p s → JFastMem cons w A0 p l s.mat →
    ∃ s', es.foldlM (JFast.step lop pat cons w x) s = some s' ∧
      JFastMem cons w A0 p' (l ++ es.flatMap (matContributions lop x)) s'.mat := by
  induction es with
  | nil =>
    intro p p' hp l s _ hm
    simp only [List.foldlM_nil, Option.pure_def, Option.some.injEq] at hp
    subst hp
    exact ⟨s, rfl, by simpa using hm⟩
  | cons e es ih =>
    intro p p' hp l s hb hm
    rw [List.foldlM_cons] at hp
    rcases Option.eq_none_or_eq_some (p.step e) with h | ⟨q, h⟩
    · rw [h] at hp; cases hp
    · rw [h] at hp
      obtain ⟨s1, h1, hb1, hm1⟩ := jfast_step lop pat cons w x A0 p q e h (hcov e List.mem_cons_self) l s hb hm
      obtain ⟨s2, h2, hm2⟩ := ih (fun e he => hcov e (List.mem_cons_of_mem _ he)) q p' hp _ s1 hb1 hm1
      refine ⟨s2, ?_, ?_⟩
      · rw [List.foldlM_cons, h1]; exact h2
      · rw [List.flatMap_cons, ← List.append_assoc]; exact hm2

/-! Default Jacobian -/

theorem scatter_some [Semiring K] [DecidableEq K] (n : Nat) (pat : Nat → Nat → Bool) (r0 c0 : Nat) (h : pat r0 c0 = true)
    (a : Nat → Nat → K) (A : Mat K) : ∃ B, scatter n pat r0 c0 a A = some B ∧
      ∀ r c, ∀ i < n, ∀ j < n, B r i c j = A r i c j + onPair r0 c0 a r i c j := by
  refine ⟨_, by unfold scatter; rw [if_pos (by simp [h])], ?_⟩
  intro r c i hi j hj
  unfold onPair
  by_cases h2 : r = r0 ∧ c = c0
  · rw [if_pos ⟨h2.1, h2.2, hi, hj⟩, if_pos (by rw [h2.1, h2.2])]
  · rw [if_neg (fun hh => h2 ⟨hh.1, hh.2.1⟩), if_neg, add_zero]
    intro hh
    rw [Prod.mk.injEq] at hh
    exact h2 ⟨hh.1.symm, hh.2.symm⟩

/-- State of the default Jacobian engine after the accumulations `l`. -/
def JDefaultInv [Semiring K] (n : Nat) (pat : Nat → Nat → Bool) (cons : List (Nat × Nat)) (w : K) (x : Vec K) (A0 : Mat K)
    (p : Protocol) (l : List ((Nat × Nat) × MAcc K)) (s : JDefault K) : Prop :=
  match p with
  | .start | .ready | .vBound _ => ∀ r c, ∀ i < n, ∀ j < n, s.mat r i c j = A0 r i c j + matSum (matScale w) l r i c j
  | .done => ∀ r c, ∀ i < n, ∀ j < n, s.mat r i c j = if (r, i) ∈ cons then (if c = r ∧ j = i then 1 else 0)
      else A0 r i c j + matSum (matScale w) l r i c j
  | .uvBound b => pat b b = true ∧ ∀ r c, ∀ i < n, ∀ j < n,
      s.mat r i c j + onPair b b s.ss r i c j = A0 r i c j + matSum (matScale w) l r i c j
  | .loaded b | .vOutside b _ => pat b b = true ∧ (∀ r c, ∀ i < n, ∀ j < n,
      s.mat r i c j + onPair b b s.ss r i c j = A0 r i c j + matSum (matScale w) l r i c j) ∧ s.xl = x b
  | .uvOutside b m => (pat b b = true ∧ pat b m = true ∧ pat m b = true ∧ pat m m = true) ∧ (∀ r c, ∀ i < n, ∀ j < n,
      s.mat r i c j + (onPair b b s.ss r i c j + (onPair b m s.sn r i c j + (onPair m b s.ns r i c j + onPair m m s.nn r i c j))) =
        A0 r i c j + matSum (matScale w) l r i c j) ∧ s.xl = x b
  | .outsideLoaded b m => (pat b b = true ∧ pat b m = true ∧ pat m b = true ∧ pat m m = true) ∧ (∀ r c, ∀ i < n, ∀ j < n,
      s.mat r i c j + (onPair b b s.ss r i c j + (onPair b m s.sn r i c j + (onPair m b s.ns r i c j + onPair m m s.nn r i c j))) =
        A0 r i c j + matSum (matScale w) l r i c j) ∧ s.xl = x b ∧ s.xn = x m

theorem jdefault_step [Semiring K] [DecidableEq K] (lop : JLop K) (n : Nat) (pat : Nat → Nat → Bool) (cons : List (Nat × Nat)) (w : K)
    (x : Vec K) (A0 : Mat K) (p p' : Protocol) (e : Event) (hp : p.step e = some p') (hcov : CoversEvent pat e)
    (l : List ((Nat × Nat) × MAcc K)) (s : JDefault K) (hm : JDefaultInv n pat cons w x A0 p l s) :
    ∃ s', JDefault.step lop n pat cons w x s e = some s' ∧
      JDefaultInv n pat cons w x A0 p' (l ++ matContributions lop x e) s' := by
  cases trans_of_step hp
  case pre c f i o =>
    have hc : matContributions lop x ⟨.preAssembly, c, f, i, o⟩ = [] := by simp [matContributions]
    rw [hc, List.append_nil]
    exact ⟨s, rfl, hm⟩
  case post c f i o =>
    have hc : matContributions lop x ⟨.postAssembly, c, f, i, o⟩ = [] := by simp [matContributions]
    rw [hc, List.append_nil]
    refine ⟨_, rfl, fun r c i hi j hj => ?_⟩
    change cons.foldl (fun A d => clearRow d A) s.mat r i c j = _
    rw [clearRows_apply, hm r c i hi j hj]
  case bindV c f i o =>
    have hc : matContributions lop x ⟨.onBindLFSV, c, f, i, o⟩ = [] := by simp [matContributions]
    rw [hc, List.append_nil]
    exact ⟨s, rfl, hm⟩
  case vVolume c f i o =>
    have hc : matContributions lop x ⟨.assembleVVolume, c, f, i, o⟩ = [] := by simp [matContributions]
    rw [hc, List.append_nil]
    exact ⟨s, rfl, hm⟩
  case bindUV c f i o =>
    have hc : matContributions lop x ⟨.onBindLFSUV, c, f, i, o⟩ = [] := by simp [matContributions]
    rw [hc, List.append_nil]
    refine ⟨_, rfl, hcov.1 rfl, fun r c' i hi j hj => ?_⟩
    change s.mat r i c' j + onPair c c (fun _ _ => 0) r i c' j = _
    rw [onPair_zero, add_zero]; exact hm r c' i hi j hj
  case unbindV c f i o =>
    have hc : matContributions lop x ⟨.onUnbindLFSV, c, f, i, o⟩ = [] := by simp [matContributions]
    rw [hc, List.append_nil]
    exact ⟨s, rfl, hm⟩
  case load c f i o =>
    have hc : matContributions lop x ⟨.loadInside, c, f, i, o⟩ = [] := by simp [matContributions]
    rw [hc, List.append_nil]
    exact ⟨_, rfl, hm.1, hm.2, rfl⟩
  case unbindUV c f i o =>
    have hc : matContributions lop x ⟨.onUnbindLFSUV, c, f, i, o⟩ = [] := by simp [matContributions]
    rw [hc, List.append_nil]
    obtain ⟨B, hB, hB'⟩ := scatter_some n pat c c hm.1 s.ss s.mat
    refine ⟨{ s with mat := B }, by simp [JDefault.step, hB], fun r c' i hi j hj => ?_⟩
    change B r i c' j = _
    rw [hB' r c' i hi j hj]; exact hm.2.1 r c' i hi j hj
  case bindVOut c f i m =>
    have hc : matContributions lop x ⟨.onBindLFSVOutside, c, f, i, m⟩ = [] := by simp [matContributions]
    rw [hc, List.append_nil]
    exact ⟨_, rfl, hm⟩
  case vSkeleton c f i m =>
    have hc : matContributions lop x ⟨.assembleVSkeleton, c, f, i, m⟩ = [] := by simp [matContributions]
    rw [hc, List.append_nil]
    exact ⟨_, rfl, hm⟩
  case bindUVOut c f i m =>
    have hc : matContributions lop x ⟨.onBindLFSUVOutside, c, f, i, m⟩ = [] := by simp [matContributions]
    rw [hc, List.append_nil]
    refine ⟨_, rfl, ⟨hm.1, hcov.2 rfl⟩, fun r c' i hi j hj => ?_, hm.2.2⟩
    change s.mat r i c' j + (onPair c c s.ss r i c' j + (onPair c m (fun _ _ => 0) r i c' j +
      (onPair m c (fun _ _ => 0) r i c' j + onPair m m (fun _ _ => 0) r i c' j))) = _
    simp only [onPair_zero, add_zero]
    exact hm.2.1 r c' i hi j hj
  case loadOut c f i m =>
    have hc : matContributions lop x ⟨.loadOutside, c, f, i, m⟩ = [] := by simp [matContributions]
    rw [hc, List.append_nil]
    exact ⟨_, rfl, hm.1, hm.2.1, hm.2.2, rfl⟩
  case unbindUVOut c f i m =>
    have hc : matContributions lop x ⟨.onUnbindLFSUVOutside, c, f, i, m⟩ = [] := by simp [matContributions]
    rw [hc, List.append_nil]
    obtain ⟨⟨p1, p2, p3, p4⟩, h1, h2, h3⟩ := hm
    obtain ⟨B, hB, hB'⟩ := scatter_some n pat c m p2 s.sn s.mat
    obtain ⟨C, hC, hC'⟩ := scatter_some n pat m c p3 s.ns B
    obtain ⟨D, hD, hD'⟩ := scatter_some n pat m m p4 s.nn C
    refine ⟨{ s with mat := D }, by simp [JDefault.step, hB, hC, hD], p1, fun r c' i hi j hj => ?_, h2⟩
    change D r i c' j + onPair c c s.ss r i c' j = _
    rw [hD' r c' i hi j hj, hC' r c' i hi j hj, hB' r c' i hi j hj, ← h1 r c' i hi j hj]
    rw [add_assoc (s.mat r i c' j), add_assoc (s.mat r i c' j), add_assoc (s.mat r i c' j), add_comm _ (onPair c c s.ss r i c' j),
      add_assoc (onPair c m s.sn r i c' j)]
  case unbindVOut c f i m =>
    have hc : matContributions lop x ⟨.onUnbindLFSVOutside, c, f, i, m⟩ = [] := by simp [matContributions]
    rw [hc, List.append_nil]
    exact ⟨_, rfl, hm⟩
  case processor k hk c f i o =>
    have hc : matContributions lop x ⟨k, c, f, i, o⟩ = [] := by rcases hk with rfl | rfl <;> simp [matContributions]
    rw [hc, List.append_nil]
    rcases hk with rfl | rfl <;> exact ⟨_, rfl, hm⟩
  case cellV k hk c f i o =>
    have hc : matContributions lop x ⟨k, c, f, i, o⟩ = [] := by rcases hk with rfl | rfl <;> simp [matContributions]
    rw [hc, List.append_nil]
    rcases hk with rfl | rfl <;> exact ⟨_, rfl, hm⟩
  case cellUV k hk c f i o =>
    obtain ⟨p1, h1, h2⟩ := hm
    by_cases hf : lop.flag k = true
    · have hc : matContributions lop x ⟨k, c, f, i, o⟩ = (lop.jacobian ⟨k, c, f, i, o⟩ (x c)).map fun a => ((c, c), a) := by
        rcases hk with rfl | rfl | rfl <;> simp [matContributions, hf]
      rw [hc]
      refine ⟨{ s with ss := accLocalMat w (lop.jacobian ⟨k, c, f, i, o⟩ s.xl) s.ss }, ?_, p1, fun r c' i hi j hj => ?_, h2⟩
      · rcases hk with rfl | rfl | rfl <;> simp [JDefault.step, hf]
      · rw [h2, onPair_acc, matSum_append, matSum_pair, ← add_assoc, ← add_assoc, ← h1 r c' i hi j hj]
    · have hc : matContributions lop x ⟨k, c, f, i, o⟩ = [] := by simp [matContributions, hf]
      rw [hc, List.append_nil]
      refine ⟨s, ?_, p1, h1, h2⟩
      rcases hk with rfl | rfl | rfl <;> simp [JDefault.step, hf]
  case uvSkeleton c f i m =>
    obtain ⟨p1, h1, h2, h3⟩ := hm
    by_cases hf : lop.flag .assembleUVSkeleton = true
    · have hc : matContributions lop x ⟨.assembleUVSkeleton, c, f, i, m⟩ =
          (lop.jacobianSkeleton ⟨.assembleUVSkeleton, c, f, i, m⟩ (x c) (x m)).map fun p => (pairCells c m p.1, p.2) := by
        simp [matContributions, hf, pairCells]
      rw [hc]
      refine ⟨{ s with
        ss := accLocalMat w (ofPair .ss (lop.jacobianSkeleton ⟨.assembleUVSkeleton, c, f, i, m⟩ s.xl s.xn)) s.ss
        sn := accLocalMat w (ofPair .sn (lop.jacobianSkeleton ⟨.assembleUVSkeleton, c, f, i, m⟩ s.xl s.xn)) s.sn
        ns := accLocalMat w (ofPair .ns (lop.jacobianSkeleton ⟨.assembleUVSkeleton, c, f, i, m⟩ s.xl s.xn)) s.ns
        nn := accLocalMat w (ofPair .nn (lop.jacobianSkeleton ⟨.assembleUVSkeleton, c, f, i, m⟩ s.xl s.xn)) s.nn },
        ?_, p1, fun r c' i hi j hj => ?_, h2, h3⟩
      · simp [JDefault.step, hf]
      · rw [h2, h3]
        simp only [onPair_acc]
        rw [matSum_append, matSum_pairs, ← add_assoc (A0 r i c' j), ← h1 r c' i hi j hj, add_assoc (s.mat r i c' j)]
        congr 1
        rw [add_add_add_comm (onPair m c _ _ _ _ _), add_add_add_comm (onPair c m _ _ _ _ _), add_add_add_comm (onPair c c _ _ _ _ _)]
    · have hc : matContributions lop x ⟨.assembleUVSkeleton, c, f, i, m⟩ = [] := by simp [matContributions, hf]
      rw [hc, List.append_nil]
      exact ⟨s, by simp [JDefault.step, hf], p1, h1, h2, h3⟩

theorem jdefault_run [Semiring K] [DecidableEq K] (lop : JLop K) (n : Nat) (pat : Nat → Nat → Bool) (cons : List (Nat × Nat)) (w : K)
    (x : Vec K) (A0 : Mat K) (es : List Event) (hcov : ∀ e ∈ es, CoversEvent pat e) : ∀ (p p' : Protocol),
    es.foldlM Protocol.step p = some p' → ∀ (l : List ((Nat × Nat) × MAcc K)) (s : JDefault K),
    JDefaultInv n pat cons w x A0 p l s →
    ∃ s', es.foldlM (JDefault.step lop n pat cons w x) s = some s' ∧
      JDefaultInv n pat cons w x A0 p' (l ++ es.flatMap (matContributions lop x)) s' := by
  induction es with
  | nil =>
    intro p p' hp l s hm
    simp only [List.foldlM_nil, Option.pure_def, Option.some.injEq] at hp
    subst hp
    exact ⟨s, rfl, by simpa using hm⟩
  | cons e es ih =>
    intro p p' hp l s hm
    rw [List.foldlM_cons] at hp
    rcases Option.eq_none_or_eq_some (p.step e) with h | ⟨q, h⟩
    · rw [h] at hp; cases hp
    · rw [h] at hp
      obtain ⟨s1, h1, hm1⟩ := jdefault_step lop n pat cons w x A0 p q e h (hcov e List.mem_cons_self) l s hm
      obtain ⟨s2, h2, hm2⟩ := ih (fun e he => hcov e (List.mem_cons_of_mem _ he)) q p' hp _ s1 hm1
      refine ⟨s2, ?_, ?_⟩
      · rw [List.foldlM_cons, h1]; exact h2
      · rw [List.flatMap_cons, ← List.append_assoc]; exact hm2

end Verif.FastDG
