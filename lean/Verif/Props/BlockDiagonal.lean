import Verif.Proofs.BlockDiagonal
import Mathlib.Algebra.Ring.Int.Defs
import Mathlib.Algebra.Field.Rat
import Mathlib.Tactic.FinCases
/-
Theorems about the diagonal blocks of a matrix (C220).
-/
namespace Verif

open Istl BlockDiagonal

variable {K : Type} {n m d : Nat}

/-- **C220** (extraction). The diagonal blocks can be extracted if and only if they are all in the pattern, and then they contain, for every row, the
entries of the matrix in the columns that belong to the same innermost block. -/
theorem C220_extract (a : Mat K n m d) : ((fromMatrix d a).isSome ↔ HasDiagonal d a) ∧
    ∀ D, fromMatrix d a = some D → ∀ p l, entryD d D p l = entryM d a p (sibling p l) :=
  ⟨fromMatrix_isSome a, fun D h p l => fromMatrix_entry a D h p l⟩

/-- **C220** (product). The product with a vector is defined if and only if the vectors have all the blocks; every entry for a row of the diagonal is the
product of the row with the part of the vector in the same block, and other entries of the result keep their values. -/
theorem C220_product [NonUnitalNonAssocSemiring K] (D : Diag K n m d) (x : Vec K m d) (y : Vec K n d) :
    ((mv d D x y).isSome ↔ Covers d D x ∧ Covers d D y) ∧
    ∀ z, mv d D x y = some z → ∀ p, (entryV d D p = none → entryV d z p = entryV d y p) ∧
      ∀ r, entryV d D p = some r →
        ∃ f : Fin m → K, (∀ l : Fin m, entryV d x (sibling p l) = some (f l)) ∧ entryV d z p = some (∑ l, r l * f l) :=
  ⟨mv_isSome D x y, fun z h p => mv_entry D x y z h p⟩

/-- **C220** (block Jacobi). Extracting the diagonal blocks, inverting them and multiplying with `x` gives a vector `z` for which every row of the block
diagonal part of the matrix, applied to `z`, gives the entry of `x`. -/
theorem C220_jacobi [Semiring K] (inv : (Fin n → Fin n → K) → Option (Fin n → Fin n → K))
    (hinv : ∀ a b, inv a = some b → ∀ k l, ∑ j, a k j * b j l = if k = l then 1 else 0) (a : Mat K n n d) (D D' : Diag K n n d)
    (hD : fromMatrix d a = some D) (hD' : invert inv d D = some D') (x y z : Vec K n d) (h : mv d D' x y = some z) (p : List Nat)
    (hp : (entryV d D p).isSome) :
    ∃ r f : Fin n → K, (∀ l : Fin n, entryM d a p (sibling p l) = some (r l)) ∧ (∀ l : Fin n, entryV d z (sibling p l) = some (f l)) ∧
      entryV d x p = some (∑ l, r l * f l) := by
  obtain ⟨r, hr⟩ := Option.isSome_iff_exists.1 hp
  obtain ⟨f, h1, h2⟩ := solve_entry mul_assoc inv hinv D D' hD' x y z h p r hr
  exact ⟨r, f, fun l => by rw [← fromMatrix_entry a D hD, entryD_some D p l r hr], h1, h2⟩

/-- **C220** (sending). The data of an entity are the rows of its DOFs, one after the other; sending is defined if and only if all multi-indices name
rows. -/
theorem C220_gather (D : Diag K n m d) (hm : 0 < m) (cis : List (List Nat)) :
    ((gather d D cis).isSome ↔ ∀ ci ∈ cis, IsRowOf d D ci) ∧
    ∀ rows : List (Fin m → K), (∀ ci ∈ cis, IsRowOf d D ci) → cis.map (fun ci => entryV d D (address n d ci)) = rows.map some →
      gather d D cis = some (rows.flatMap List.ofFn) := by
  refine ⟨⟨fun h ci hci => ?_, fun h => ?_⟩, fun rows h hr => gather_some D hm cis rows h hr⟩
  · by_contra hc
    rw [gather_none D cis ⟨ci, hci, hc⟩] at h
    cases h
  · have : ∃ rows : List (Fin m → K), cis.map (fun ci => entryV d D (address n d ci)) = rows.map some := by
      clear hm
      induction cis with
      | nil => exact ⟨[], rfl⟩
      | cons ci cis ih =>
        obtain ⟨rows, hrows⟩ := ih fun ci h' => h ci (List.mem_cons_of_mem _ h')
        obtain ⟨r, hr⟩ := Option.isSome_iff_exists.1 (h ci (List.mem_cons_self ..)).2
        exact ⟨r :: rows, by rw [List.map_cons, List.map_cons, hrows, hr]⟩
    obtain ⟨rows, hrows⟩ := this
    rw [gather_some D hm cis rows h hrows]
    rfl

/-- **C220** (announced size). If the number of data of an entity can be computed, then it is the number of data which are sent. Missing: it cannot be
computed if the first block of a container has no blocks, see `C220_size_false`. -/
theorem C220_size_partial (D : Diag K n m d) (hm : 0 < m) (cis : List (List Nat)) (s : Nat) (h : dataSize d D cis = some s) (data : List K)
    (hd : gather d D cis = some data) : data.length = s := by
  have hrow := (C220_gather D hm cis).1.1 (by rw [hd]; rfl)
  have : ∃ rows : List (Fin m → K), cis.map (fun ci => entryV d D (address n d ci)) = rows.map some := by
    clear h hd
    induction cis with
    | nil => exact ⟨[], rfl⟩
    | cons ci cis ih =>
      obtain ⟨rows, hrows⟩ := ih fun ci h' => hrow ci (List.mem_cons_of_mem _ h')
      obtain ⟨r, hr⟩ := Option.isSome_iff_exists.1 (hrow ci (List.mem_cons_self ..)).2
      exact ⟨r :: rows, by rw [List.map_cons, List.map_cons, hrows, hr]⟩
  obtain ⟨rows, hrows⟩ := this
  rw [gather_some D hm cis rows hrow hrows, Option.some.injEq] at hd
  rw [← hd, dataSize_eq D cis s h, ← show rows.length = cis.length by simpa using (congrArg List.length hrows).symm]
  clear hd hrows
  induction rows with
  | nil => simp
  | cons r rows ih => rw [List.flatMap_cons, List.length_append, ih, List.length_ofFn, List.length_cons, Nat.succ_mul, Nat.add_comm]

/-- **C220** (receiving). Rows sent by another process for the same DOFs are added to the rows of these DOFs, entry by entry; all other entries keep
their values, and all the data are read. -/
theorem C220_exchange [AddMonoid K] {d' : Nat} (D : Diag K n m d) (E : Diag K n m d') (hm : 0 < m) (cis cis' : List (List Nat))
    (hlen : cis'.length = cis.length) (h : ∀ ci ∈ cis, IsRowOf d D ci) (rows : List (Fin m → K)) (h' : ∀ ci ∈ cis', IsRowOf d' E ci)
    (hrows : cis'.map (fun ci => entryV d' E (address n d' ci)) = rows.map some) :
    ∃ data D', gather d' E cis' = some data ∧ scatter d cis D data = some (D', []) ∧
      ∀ p (l : Fin m), entryD d D' p l =
        (entryD d D p l).map (· + ((cis.zip rows).map fun x => if address n d x.1 = p then x.2 l else 0).sum) := by
  have hl : rows.length = cis.length := by
    have := congrArg List.length hrows
    simp only [List.length_map] at this
    omega
  obtain ⟨D', h1, h2⟩ := scatter_some hm [] cis rows D h hl
  exact ⟨_, D', gather_some E hm cis' rows h' hrows, by rw [List.append_nil] at h1; exact h1, h2⟩

/-- A matrix with two blocks, the second of which has two rows of blocks of size 2. -/
def bdMat : Mat Int 2 2 2 :=
  Mat.ofRows [[(0, Mat.ofRows [[(0, Mat.ofField fun k l => 1 + 2 * k + l)]]), (1, Mat.ofRows [])],
    [(1, Mat.ofRows [[(1, Mat.ofField fun _ _ => 77), (0, Mat.ofField fun k l => 5 + 2 * k + l)], [(1, Mat.ofField fun k l => 9 + 2 * k + l)]])]]

def bdDiag : Diag Int 2 2 2 :=
  Vec.ofBlocks [Vec.ofBlocks [Vec.ofField fun k l => 1 + 2 * k + l],
    Vec.ofBlocks [Vec.ofField fun k l => 5 + 2 * k + l, Vec.ofField fun k l => 9 + 2 * k + l]]

example : fromMatrix 2 bdMat = some bdDiag ∧ gather 2 bdDiag [[1, 0, 0], [0, 1, 1]] = some [3, 4, 9, 10] ∧
    dataSize 2 bdDiag [[1, 0, 0], [0, 1, 1]] = some 4 ∧
    (scatter 2 [[1, 0, 0], [0, 1, 1]] bdDiag [10, 20, 30, 40, 50]).map (fun s => (gather 2 s.1 [[1, 0, 0], [0, 1, 1], [0, 0, 1]], s.2)) =
      some (some [13, 24, 39, 50, 5, 6], [50]) :=
  ⟨rfl, by decide +kernel, by decide +kernel, by decide +kernel⟩

example : IsRowOf 2 bdDiag [1, 0, 0] ∧ IsRowOf 2 bdDiag [0, 1, 1] ∧ ¬ IsRowOf 2 bdDiag [0, 1, 0] ∧ ¬ IsRowOf 2 bdDiag [0, 1] := by
  unfold IsRowOf
  decide +kernel

/-- Blocks of size 1 with the inverse. -/
def bdInv (a : Fin 1 → Fin 1 → Rat) : Option (Fin 1 → Fin 1 → Rat) := if a 0 0 = 0 then none else some fun _ _ => 1 / a 0 0

def bdOne : Mat Rat 1 1 1 := Mat.ofRows [[(0, Mat.ofField fun _ _ => 2), (1, Mat.ofField fun _ _ => 7)], [(1, Mat.ofField fun _ _ => 4)]]

example : (((fromMatrix 1 bdOne).bind (invert bdInv 1)).bind fun D => (mv 1 D (Vec.ofBlocks [Vec.ofField fun _ => 6, Vec.ofField fun _ => 8])
    (Vec.ofBlocks [Vec.ofField fun _ => 0, Vec.ofField fun _ => 0])).map fun z => (entryV 1 z [0, 0], entryV 1 z [1, 0])) = some (some 3, some 2) := by
  decide +kernel

example : ∀ a b, bdInv a = some b → ∀ k l, ∑ j, a k j * b j l = if k = l then (1 : Rat) else 0 := by
  intro a b h k l
  unfold bdInv at h
  split at h
  · cases h
  · rename_i h0
    cases h
    have hk : k = 0 := Fin.ext (by omega)
    have hl : l = 0 := Fin.ext (by omega)
    subst hk hl
    simp [h0]

/-- C220 is false of the code for the size of the data if the first block of the container has no DOFs on this process: the size of a row is asked from the
first block of the first block, which does not exist, although the rows of the entity do. -/
theorem C220_size_false : ∃ D : Diag Int 2 2 2, IsRowOf 2 D [0, 0, 1] ∧ gather 2 D [[0, 0, 1]] = some [5, 6] ∧ dataSize 2 D [[0, 0, 1]] = none :=
  ⟨Vec.ofBlocks [Vec.ofBlocks [], Vec.ofBlocks [Vec.ofField fun k l => 5 + 2 * k + l]], by unfold IsRowOf; decide +kernel, by decide +kernel, by decide +kernel⟩

end Verif
