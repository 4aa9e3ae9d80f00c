import Mathlib.Tactic.Common

/-! # Lazy reading of pickled checkpoints (`/repo/mergekit/io/lazy_unpickle.py`)

A zip archive is a map from member names to bytes.  Of python's `zipfile.ZipExtFile` the following is used:
`tell` is the position, `seek(n, SEEK_CUR)` moves forward but not past the end, `read(n)` returns up to `n` bytes and
advances; every operation on a closed file raises `ValueError`. -/

namespace Verif.Archive

/-- Contents of a file in the archive.  [io/lazy_unpickle.py:114-151] -/
abbrev Bytes := List UInt8

/-- `zipfile.ZipFile` together with `archive_name` (lazy_unpickle.py:122-129). -/
structure Zip where
  members : String → Option Bytes
  archiveName : String

/-- A `ZipExtFile`.  [io/lazy_unpickle.py:131-151] -/
structure Handle where
  data : Bytes
  pos : Nat
  closed : Bool

/-- `TorchArchiveReader`, lazy_unpickle.py:122-125. -/
structure Reader where
  fileName : Option String := none
  file : Option Handle := none

/-- How reading may fail.  [io/lazy_unpickle.py:131-151] -/
inductive ReadError where
  /-- `KeyError` from `ZipFile.open` -/
  | noMember
  /-- `ValueError`: operation on a closed file -/
  | closedFile
  /-- the assertion of lazy_unpickle.py:148 -/
  | assertion
  /-- `reduce()` of an empty shape, lazy_unpickle.py:74 -/
  | emptyReduce
  /-- `self.file` is `None` -/
  | noFile
deriving DecidableEq, Repr

/-- The two attempts at `archive.open`, lazy_unpickle.py:138-143. -/
def openMember (z : Zip) (name : String) : Option Bytes :=
  match z.members ("archive/data/" ++ name) with
  | some b => some b
  | none => z.members (z.archiveName ++ "/data/" ++ name)

/-- The positioning at the end of `open_file`, lazy_unpickle.py:147-151. -/
def position (r : Reader) (offset : Nat) : Except ReadError Unit × Reader :=
  match r.file with
  | none => (.error .noFile, r)
  | some h =>
    if h.closed then (.error .closedFile, r)
    else if h.pos ≤ offset then
      (.ok (), { r with file := some { h with pos := min offset h.data.length } })
    else (.error .assertion, r)

/-- `open_file`, lazy_unpickle.py:131-151. -/
def openFile (z : Zip) (r : Reader) (name : String) (offset : Nat) : Except ReadError Unit × Reader :=
  if r.fileName ≠ some name then
    let closed := r.file.map (fun h => { h with closed := true })
    match openMember z name with
    | none => (.error .noMember, { r with file := closed })
    | some b => position ⟨some name, some ⟨b, 0, false⟩⟩ offset
  else
    match r.file with
    | none => position r offset
    | some h =>
      if h.closed then (.error .closedFile, r)
      else if h.pos > offset then
        match openMember z name with
        | none => (.error .noMember, { r with file := some { h with closed := true } })
        | some b => position ⟨some name, some ⟨b, 0, false⟩⟩ offset
      else position r offset

/-- `f = reader.open_file(...)`, `f.read(count)`, lazy_unpickle.py:77-79. -/
def readAt (z : Zip) (r : Reader) (name : String) (offset count : Nat) : Except ReadError Bytes × Reader :=
  match openFile z r name offset with
  | (.error e, r') => (.error e, r')
  | (.ok (), r') =>
    match r'.file with
    | none => (.error .noFile, r')
    | some h =>
      let out := (h.data.drop h.pos).take count
      (.ok out, { r' with file := some { h with pos := h.pos + out.length } })

/-- `DeferredLoad` after `rebuild`, lazy_unpickle.py:43-67; `itemSize` is `dtype_bytes(dtype)`, `offset` the
storage offset in elements. -/
structure Deferred where
  name : String
  itemSize : Nat
  offset : Nat
  shape : List Nat
  stride : List Nat

/-- `file_offset`, lazy_unpickle.py:66. -/
def Deferred.fileOffset (d : Deferred) : Nat := d.offset * d.itemSize

/-- `DeferredLoad.execute` up to the buffer it reads, lazy_unpickle.py:69-80. -/
def Deferred.buffer (z : Zip) (r : Reader) (d : Deferred) : Except ReadError Bytes × Reader :=
  match d.shape with
  | [] => (.error .emptyReduce, r)
  | _ => readAt z r d.name d.fileOffset (d.shape.prod * d.itemSize)

/-- Element position of a multi-index: what `tensor.set_(storage, 0, shape, stride)` addresses
(lazy_unpickle.py:86). -/
def flatIndex : List Nat → List Nat → Nat
  | i :: is, s :: ss => i * s + flatIndex is ss
  | _, _ => 0

/-- The bytes of the element of the loaded tensor at a multi-index; `none` if outside the buffer.  [io/lazy_unpickle.py:69-89] -/
def element (d : Deferred) (buf : Bytes) (idx : List Nat) : Option Bytes :=
  let p := flatIndex idx d.stride * d.itemSize
  if p + d.itemSize ≤ buf.length then some ((buf.drop p).take d.itemSize) else none

/-- A request made of a reader.  [io/lazy_unpickle.py:131-151] -/
inductive Request where
  | openAt (name : String) (offset : Nat)
  | read (name : String) (offset count : Nat)
  | tensor (d : Deferred)

/-- The reader after a history of requests (whether they failed or not).  [io/lazy_unpickle.py:127-151] -/
def after (z : Zip) : Reader → List Request → Reader
  | r, [] => r
  | r, .openAt n o :: rest => after z (openFile z r n o).2 rest
  | r, .read n o c :: rest => after z (readAt z r n o c).2 rest
  | r, .tensor d :: rest => after z (d.buffer z r).2 rest

end Verif.Archive
