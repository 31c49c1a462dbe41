/-
Model of the communication data handles of grid function spaces.

Sources: dune/pdelab/gridfunctionspace/genericdatahandle.hh, dune/pdelab/gridfunctionspace/datahandleprovider.hh,
dune/pdelab/gridfunctionspace/entityindexcache.hh and dune/pdelab/common/polymorphicbufferwrapper.hh (all under /repo).

Simplifications: the message buffer of the grid is the list of bytes written to it; reading takes bytes from the front. The grid
calls `gather` and `scatter` for the entities of an interface in the same order on both sides and passes to `scatter` the number of
bytes which the sender announced.
-/
namespace Verif.DataHandle

/-- A type of which objects are copied byte by byte (`reinterpret_cast<char*>`, polymorphicbufferwrapper.hh:42-58): `size` is
`sizeof(T)`; copying the bytes of an object into another one gives the same object. -/
structure Codec (Byte α : Type) where
  size : Nat
  enc : α → List Byte
  dec : List Byte → α
  pos : 0 < size
  len : ∀ a, (enc a).length = size
  dec_enc : ∀ a, dec (enc a) = a

/-- What ends a `scatter` call abnormally: the exceptions of genericdatahandle.hh:334, 343, 391 and 404, reading behind the end of the
buffer, and accessing a local view behind its end (both undefined in the code). -/
inductive Err where
  | sizeMismatch
  | unexpectedDofs
  | bufferUnderrun
  | viewOverrun
  deriving DecidableEq, Repr

variable {Byte E : Type}

/-- `PolymorphicBufferWrapper::write`, polymorphicbufferwrapper.hh:42-49. -/
def write {α : Type} (c : Codec Byte α) (buf : List Byte) (a : α) : List Byte := buf ++ c.enc a

/-- `PolymorphicBufferWrapper::read`, polymorphicbufferwrapper.hh:51-58. -/
def read {α : Type} (c : Codec Byte α) (buf : List Byte) : Except Err (α × List Byte) :=
  if buf.length < c.size then .error .bufferUnderrun else .ok (c.dec (buf.take c.size), buf.drop c.size)

/-- Compile-time parameters of a data handle: the types sent (`E`, `size_type`, `int`), `transmit_rank`
(genericdatahandle.hh:23,36-39) and `sendLeafSizes()` of the space (datahandleprovider.hh:226-229). -/
structure Config (Byte E : Type) where
  cE : Codec Byte E
  cSize : Codec Byte Nat
  cInt : Codec Byte Nat
  transmitRank : Bool
  sendLeafSizes : Bool

/-- What one process knows of an entity: whether the partition type of the entity belongs to the entity set of the space, the number of
DOFs per leaf of the ordering tree as obtained with the index of the entity in the *grid view* and with its index in the *entity set*,
whether the space has DOFs for the codimension, and the local view of the vector on the DOFs of the entity.
Used for `Side.offsets`, entityindexcache.hh:49-57. -/
structure Side (E : Type) where
  inPartition : Bool
  contains : Bool
  leafSizesGridIndex : List Nat
  leafSizesSetIndex : List Nat
  dofs : List E

/-- `std::partial_sum`. Used for `Side.offsets`, entityindexcache.hh:49-57. -/
def partialSum : Nat → List Nat → List Nat
  | _, [] => []
  | acc, x :: xs => (acc + x) :: partialSum (acc + x) xs

/-- `EntityIndexCache::update`, entityindexcache.hh:49-57, with the offsets part of `dataHandleIndices`,
datahandleprovider.hh:287-313: zero, followed by the partial sums of the leaf sizes; all zero if the codimension carries no DOFs. -/
def Side.offsets (s : Side E) : List Nat :=
  if s.contains then partialSum 0 (0 :: s.leafSizesSetIndex) else List.replicate (s.leafSizesSetIndex.length + 1) 0

/-- `dataHandleSize`, datahandleprovider.hh:235-253: the leaf sizes are summed up, but the entity index is taken from the index set of the
grid view (line 246), not from that of the entity set (line 305). -/
def Side.dataHandleSize (s : Side E) : Nat := s.leafSizesGridIndex.foldl (· + ·) 0

/-- `DOFDataCommunicationDescriptor::size`, genericdatahandle.hh:56-63. -/
def size (cfg : Config Byte E) (s : Side E) : Nat :=
  s.dataHandleSize * cfg.cE.size + (if cfg.sendLeafSizes then s.leafSizesSetIndex.length * cfg.cSize.size else 0) +
    (if cfg.transmitRank then cfg.cInt.size else 0)

/-- `GFSDataHandle::gather`, genericdatahandle.hh:172-202, with `DataGatherScatter::gather`, genericdatahandle.hh:319-325, for a functor
that writes its datum (Add, Copy, Min, Max; genericdatahandle.hh:642-809). The rank is written by the constructor of the wrapper
(polymorphicbufferwrapper.hh:66-75). -/
def gather (cfg : Config Byte E) (rank : Nat) (s : Side E) (buf : List Byte) : List Byte :=
  let buf := if cfg.transmitRank then write cfg.cInt buf rank else buf
  let buf := if cfg.sendLeafSizes then (s.offsets.drop 1).foldl (write cfg.cSize) buf else buf
  s.dofs.foldl (write cfg.cE) buf

/-- `k` iterations of `_gather_scatter.scatter(buff,local_view[i])` from position `i` on (genericdatahandle.hh:336-337 and 393-394);
`comb i` is the functor at local position `i`, applied to the present and the received value. -/
def scatterRange (c : Codec Byte E) (comb : Nat → E → E → E) : Nat → Nat → List E → List Byte → Except Err (List E × List Byte)
  | 0, _, view, buf => .ok (view, buf)
  | k + 1, i, view, buf =>
    match view[i]? with
    | none => .error .viewOverrun
    | some d =>
      match read c buf with
      | .error e => .error e
      | .ok (x, buf) => scatterRange c comb k (i + 1) (view.set i (comb i d x)) buf

/-- Reading `k` items into a dummy (genericdatahandle.hh:345-349, 382-386 and 406-410). -/
def drain (c : Codec Byte E) : Nat → List Byte → Except Err (List Byte)
  | 0, buf => .ok buf
  | k + 1, buf =>
    match read c buf with
    | .error e => .error e
    | .ok (_, buf) => drain c k buf

/-- `DataGatherScatter::scatter` for identical layouts, genericdatahandle.hh:327-352 (and the same code with other functor arguments in
440-466 and 545-572). Returns the view, the rest of the buffer and whether to commit. -/
def scatterStd (c : Codec Byte E) (comb : Nat → E → E → E) (n : Nat) (s : Side E) (buf : List Byte) :
    Except Err (List E × List Byte × Bool) :=
  if s.inPartition then
    if s.dofs.length ≠ n then .error .sizeMismatch
    else
      match scatterRange c comb s.dofs.length 0 s.dofs buf with
      | .error e => .error e
      | .ok (view, buf) => .ok (view, buf, true)
  else if s.dofs.length ≠ 0 then .error .unexpectedDofs
  else
    -- the loop runs up to the size of the local view, genericdatahandle.hh:345
    match drain c s.dofs.length buf with
    | .error e => .error e
    | .ok buf => .ok (s.dofs, buf, false)

/-- The loop over the blocks in the offset version of `DataGatherScatter::scatter`, genericdatahandle.hh:367-399; the list holds the pairs
of `remote_offsets[block]` and `local_offsets[block]` still to be processed. -/
def scatterBlocks (c : Codec Byte E) (comb : Nat → E → E → E) :
    List (Nat × Nat) → Nat → Nat → Bool → List E → List Byte → Except Err (List E × List Byte × Bool)
  | [], _, _, commit, view, buf => .ok (view, buf, commit)
  | (ro, lo) :: rest, remoteI, localI, commit, view, buf =>
    if ro = remoteI then scatterBlocks c comb rest remoteI lo commit view buf
    else if lo = localI then
      match drain c (ro - remoteI) buf with
      | .error e => .error e
      | .ok buf => scatterBlocks c comb rest (max ro remoteI) localI commit view buf
    else if ro - remoteI ≠ lo - localI then .error .sizeMismatch
    else
      match scatterRange c comb (lo - localI) localI view buf with
      | .error e => .error e
      | .ok (view, buf) => scatterBlocks c comb rest ro (max lo localI) true view buf

/-- `DataGatherScatter::scatter` for different layouts, genericdatahandle.hh:354-413. -/
def scatterOffsets (c : Codec Byte E) (comb : Nat → E → E → E) (remote : List Nat) (s : Side E) (buf : List Byte) :
    Except Err (List E × List Byte × Bool) :=
  if s.inPartition then
    scatterBlocks c comb ((remote.drop 1).zip (s.offsets.drop 1)) 0 0 false s.dofs buf
  else if s.dofs.length ≠ 0 then .error .unexpectedDofs
  else
    match drain c (remote.getLastD 0) buf with
    | .error e => .error e
    | .ok buf => .ok (s.dofs, buf, false)

/-- Reading the leaf offsets, genericdatahandle.hh:242-251. -/
def readOffsets (c : Codec Byte Nat) : Nat → List Byte → Except Err (List Nat × List Byte)
  | 0, buf => .ok ([], buf)
  | k + 1, buf =>
    match read c buf with
    | .error e => .error e
    | .ok (x, buf) =>
      match readOffsets c k buf with
      | .error e => .error e
      | .ok (xs, buf) => .ok (x :: xs, buf)

/-- Receiving the rank in the constructor of the wrapper, polymorphicbufferwrapper.hh:66-75; `-1` (here `none`) if it is not sent. -/
def readRank (cfg : Config Byte E) (buf : List Byte) : Except Err (Option Nat × List Byte) :=
  if cfg.transmitRank then
    match read cfg.cInt buf with
    | .error e => .error e
    | .ok (r, buf) => .ok (some r, buf)
  else .ok (none, buf)

/-- `GFSDataHandle::scatter`, genericdatahandle.hh:218-272. Returns the sender's rank, the view after the call (committed changes are
those of the view, as the views of the vector back ends are references into the container) and the rest of the buffer. -/
def scatter (cfg : Config Byte E) (comb : Nat → E → E → E) (s : Side E) (n : Nat) (buf : List Byte) :
    Except Err (Option Nat × List E × List Byte) :=
  match readRank cfg buf with
  | .error e => .error e
  | .ok (rank, buf) =>
    if cfg.sendLeafSizes then
      match readOffsets cfg.cSize s.leafSizesSetIndex.length buf with
      | .error e => .error e
      | .ok (offs, buf) =>
        match scatterOffsets cfg.cE comb (0 :: offs) s buf with
        | .error e => .error e
        | .ok (view, buf, _) => .ok (rank, view, buf)
    else
      let sz := (if cfg.transmitRank then n - cfg.cInt.size else n) / cfg.cE.size
      match scatterStd cfg.cE comb sz s buf with
      | .error e => .error e
      | .ok (view, buf, _) => .ok (rank, view, buf)

/-- The sender's side of a communication: `gather` for the entities of the interface one after the other.
Source: the calls of `gather`, genericdatahandle.hh:172-202, by the communication of the grid. -/
def gatherAll (cfg : Config Byte E) (rank : Nat) (es : List (Side E × Side E)) : List Byte :=
  es.foldl (fun buf e => gather cfg rank e.1 buf) []

/-- The receiver's side: `scatter` for the same entities in the same order, each with the number of bytes announced by the sender.
Source: the calls of `scatter`, genericdatahandle.hh:218-272, by the communication of the grid. -/
def scatterAll (cfg : Config Byte E) (comb : Nat → E → E → E) : List (Side E × Side E) → List Byte →
    Except Err (List (List E) × List Byte)
  | [], buf => .ok ([], buf)
  | (snd, rcv) :: es, buf =>
    match scatter cfg comb rcv (size cfg snd) buf with
    | .error e => .error e
    | .ok (_, view, buf) =>
      match scatterAll cfg comb es buf with
      | .error e => .error e
      | .ok (views, buf) => .ok (view :: views, buf)

/-! ### One item per entity -/

/-- `EntityDataCommunicationDescriptor::size`, genericdatahandle.hh:102-110. -/
def entitySize (sizeE sizeInt count : Nat) (transmitRank containsCodim inEntitySet : Bool) : Nat :=
  if transmitRank then (if containsCodim && inEntitySet then count * sizeE else 0) + (if transmitRank then sizeInt else 0)
  else if containsCodim && inEntitySet then count else 0

/-- Number of items written by the gather methods of `GhostGatherScatter`, `DisjointPartitioningGatherScatter` and
`SharedDOFGatherScatter` (genericdatahandle.hh:824-834, 912-921, 1026-1031): one, in every case. They are called by the grid for all
entities of the codimensions contained, genericdatahandle.hh:204-216. -/
def entityItemsWritten : Nat := 1

end Verif.DataHandle
