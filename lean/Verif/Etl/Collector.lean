import Verif.Base.Bytes
import Verif.Base.Outcome
import Verif.Db.Table

/-!
# Extract, transform, load

Model of db/silkworm/etl: entries are collected in a buffer, which is sorted and written to a file whenever it is full;
loading merges the files.

Simplifications: opening, writing and removing files succeeds; the one failure of the file system that is modelled is the
lack of space, which the code tests for. Space available to the `n`-th file is the parameter `space n`. Log output and the
counters that only drive it are left out. Sizes in bytes do not wrap around: what they count is held in memory or on
disk. `sizeof(head_t)` is 8 and integers are little-endian in memory, as on the
platforms the code is built for.
-/

namespace Silkworm.Etl

open Db (lexLt)

/-- etl/util.hpp:38-42. -/
structure Entry where
  key : Bytes
  value : Bytes
  deriving DecidableEq, Repr

/-- etl/util.hpp:41: `Entry::size`. -/
def Entry.size (e : Entry) : Nat := e.key.length + e.value.length

/-- etl/util.cpp:21-27: `operator<`. `basic_string::compare` and `<` on strings of `uint8_t` are bytewise, a proper prefix
first. -/
def Entry.lt (a b : Entry) : Bool := if a.key = b.key then lexLt a.value b.value else lexLt a.key b.key

/-- The errors: every one is an `etl_error` with its text. -/
inductive EtlError
  /-- file_provider.cpp:41 -/
  | insufficientDiskSpace
  /-- file_provider.cpp:80 -/
  | invalidFileHandle
  /-- file_provider.cpp:89-94: the file ends within an entry. -/
  | ioError
  /-- `vector::at` -/
  | outOfRange
  deriving DecidableEq, Repr

/-- etl/buffer.hpp:33-55: `optimal_size_`, `size_`, `length_`, `buffer_`. -/
structure Buffer where
  optimalSize : Nat
  size : Nat
  length : Nat
  buffer : List Entry
  deriving DecidableEq, Repr

namespace Buffer

/-- etl/buffer.hpp:30. -/
def kInitialBufferCapacity : Nat := 32768

/-- etl/buffer.hpp:39: the constructor; the vector starts with default-constructed entries. -/
def new (optimalSize : Nat) : Buffer := ⟨optimalSize, 0, 0, List.replicate kInitialBufferCapacity ⟨[], []⟩⟩

/-- etl/buffer.cpp:23-34: `put`. -/
def put (b : Buffer) (e : Entry) : Outcome EtlError Buffer :=
  let size := b.size + e.size
  if b.length ≤ b.buffer.length then
    if b.length = b.buffer.length then .ok { b with size := size, buffer := b.buffer ++ [e], length := b.length + 1 }
    else .ok { b with size := size, buffer := b.buffer.set b.length e, length := b.length + 1 }
  else .ub

/-- etl/buffer.cpp:40: `entries`. -/
def entries (b : Buffer) : List Entry := b.buffer.take b.length

/-- An entry put in its place in a sorted list. -/
def insert (e : Entry) : List Entry → List Entry
  | [] => [e]
  | x :: l => if Entry.lt x e then x :: insert e l else e :: x :: l

/-- The sorted list of entries. -/
def sorted (l : List Entry) : List Entry := l.foldr insert []

/-- etl/buffer.cpp:36: `sort` of the first `length_` entries. Entries that are not less than one another are equal, so
there is one result that `std::sort` can have. -/
def sort (b : Buffer) : Buffer := { b with buffer := sorted (b.buffer.take b.length) ++ b.buffer.drop b.length }

/-- etl/buffer.cpp:42-45: `clear`. -/
def clear (b : Buffer) : Buffer := { b with length := 0, size := 0 }

/-- etl/buffer.cpp:47: `overflows`. -/
def overflows (b : Buffer) : Bool := decide (b.optimalSize ≤ b.size)

end Buffer

/-- The bytes of a `uint32_t` in memory. -/
def le32 (n : Nat) : Bytes :=
  [UInt8.ofNat n, UInt8.ofNat (n / 256), UInt8.ofNat (n / 256 ^ 2), UInt8.ofNat (n / 256 ^ 3)]

/-- The `uint32_t` with these bytes in memory. -/
def le32ToNat (b : Bytes) : Nat :=
  (b.getD 0 0).toNat + 256 * (b.getD 1 0).toNat + 256 ^ 2 * (b.getD 2 0).toNat + 256 ^ 3 * (b.getD 3 0).toNat

/-- etl/file_provider.hpp:34-50: `id_`, `file_size_`, and what is left to read of the file, `none` when it is not open. -/
structure FileProvider where
  id : Nat
  fileSize : Nat
  file : Option Bytes
  deriving DecidableEq, Repr

namespace FileProvider

/-- etl/file_provider.cpp:53-57: what is written for one entry. The lengths are stored in 32 bits. -/
def entryBytes (e : Entry) : Bytes :=
  le32 (e.key.length % 2 ^ 32) ++ le32 (e.value.length % 2 ^ 32) ++ e.key ++ e.value

/-- etl/file_provider.cpp:32-74: `flush`. -/
def flush (p : FileProvider) (available : Nat) (b : Buffer) : Outcome EtlError FileProvider :=
  let fileSize := b.size + b.entries.length * 8
  if available < fileSize then .err .insufficientDiskSpace
  else .ok { p with fileSize := fileSize, file := some (b.entries.flatMap entryBytes) }

/-- etl/file_provider.cpp:99-105: `reset`. -/
def reset (p : FileProvider) : FileProvider := { p with fileSize := 0, file := none }

/-- `std::istream::read` of `n` bytes: fails unless there are `n` bytes left. -/
def readBytes (f : Bytes) (n : Nat) : Option (Bytes × Bytes) :=
  if n ≤ f.length then some (f.take n, f.drop n) else none

/-- etl/file_provider.cpp:76-97: `read_entry`. -/
def readEntry (p : FileProvider) : Outcome EtlError (Option (Entry × Nat) × FileProvider) :=
  match p.file with
  | none => .err .invalidFileHandle
  | some f =>
    if p.fileSize = 0 then .err .invalidFileHandle
    else match readBytes f 8 with
      | none => .ok (none, p.reset)
      | some (head, f1) =>
        match readBytes f1 (le32ToNat (head.take 4)) with
        | none => .err .ioError
        | some (key, f2) =>
          match readBytes f2 (le32ToNat (head.drop 4)) with
          | none => .err .ioError
          | some (value, f3) => .ok (some (⟨key, value⟩, p.id), { p with file := some f3 })

end FileProvider

/-- A `std::priority_queue` with the comparison of collector.cpp:103-107, as the list of its elements in the order they
were pushed and the position of the element that is on top. Nothing is known about that element but that no other is
smaller. -/
structure Heap where
  top : List (Entry × Nat) → Nat
  top_lt : ∀ q, q ≠ [] → top q < q.length
  top_min : ∀ q (h : q ≠ []), ∀ x ∈ q, Entry.lt x.1 (q[top q]'(top_lt q h)).1 = false

/-- etl/collector.hpp:33-85: `buffer_`, `file_providers_` (the pointers may be null), `size_`. -/
structure Collector where
  buffer : Buffer
  providers : List (Option FileProvider)
  size : Nat
  deriving DecidableEq, Repr

namespace Collector

/-- etl/collector.hpp:39-40: the constructor. -/
def new (optimalSize : Nat) : Collector := ⟨Buffer.new optimalSize, [], 0⟩

/-- etl/collector.cpp:36-50: `flush_buffer`. -/
def flushBuffer (space : Nat → Nat) (c : Collector) : Outcome EtlError Collector :=
  if c.buffer.size ≠ 0 then do
    let b := c.buffer.sort
    let p ← FileProvider.flush ⟨c.providers.length, 0, none⟩ (space c.providers.length) b
    .ok { c with buffer := b.clear, providers := c.providers ++ [some p] }
  else .ok c

/-- etl/collector.cpp:54-60: `collect`. -/
def collect (space : Nat → Nat) (c : Collector) (e : Entry) : Outcome EtlError Collector := do
  let b ← c.buffer.put e
  let c := { c with buffer := b, size := c.size + 1 }
  if c.buffer.overflows then flushBuffer space c else .ok c

/-- A sequence of calls of `collect`. -/
def collectAll (space : Nat → Nat) : Collector → List Entry → Outcome EtlError Collector
  | c, [] => .ok c
  | c, e :: es => do
    let c ← collect space c e
    collectAll space c es

variable {σ ε : Type}

/-- How loading ends otherwise: with an error of this layer or one thrown by the load function. -/
inductive LoadError (ε : Type)
  | etl (e : EtlError)
  | load (e : ε)
  deriving DecidableEq, Repr

/-- An error of this layer as an error of loading. -/
def lift {α : Type} : Outcome EtlError α → Outcome (LoadError ε) α
  | .ok a => .ok a
  | .err e => .err (.etl e)
  | .ub => .ub

/-- Calling the load function (or `target.put`) for one entry. -/
def deliver (f : σ → Entry → Outcome ε σ) (s : σ) (e : Entry) : Outcome (LoadError ε) σ :=
  match f s e with
  | .ok s => .ok s
  | .err e => .err (.load e)
  | .ub => .ub

/-- etl/collector.cpp:78-93: the entries of the buffer one after another. -/
def loadEntries (f : σ → Entry → Outcome ε σ) : σ → List Entry → Outcome (LoadError ε) σ
  | s, [] => .ok s
  | s, e :: es => do
    let s ← deliver f s e
    loadEntries f s es

/-- etl/collector.cpp:111-116: the first entry of every file. -/
def fillQueue : List (Option FileProvider) → Outcome EtlError (List (Entry × Nat) × List (Option FileProvider))
  | [] => .ok ([], [])
  | none :: _ => .ub
  | some p :: ps => do
    let (item, p) ← p.readEntry
    let (q, ps) ← fillQueue ps
    .ok (item.toList ++ q, some p :: ps)

/-- etl/collector.cpp:119-155: the loop over the queue. `fuel` bounds the number of rounds; running out of it stands for
not terminating. -/
def mergeLoop (h : Heap) (f : σ → Entry → Outcome ε σ) :
    Nat → σ → List (Entry × Nat) → List (Option FileProvider) → Outcome (LoadError ε) (σ × List (Option FileProvider))
  | _, s, [], ps => .ok (s, ps)
  | 0, _, _ :: _, _ => .ub
  | fuel + 1, s, x :: q, ps =>
    let queue := x :: q
    match queue[h.top queue]? with
    | none => .ub
    | some (e, i) =>
      match ps[i]? with
      | none => .err (.etl .outOfRange)
      | some provider => do
        let s ← deliver f s e
        match provider with
        | none => .ub
        | some p => do
          let (next, p) ← lift p.readEntry
          let queue := queue.eraseIdx (h.top queue)
          match next with
          | some item => mergeLoop h f fuel s (queue ++ [item]) (ps.set i (some p))
          | none => mergeLoop h f fuel s queue (ps.set i none)

/-- The bytes left to read in all files, which bound the number of rounds. -/
def leftToRead (ps : List (Option FileProvider)) : Nat :=
  (ps.map fun p => match p with
    | some p => (p.file.getD []).length
    | none => 0).sum

/-- etl/collector.cpp:62-157: `load`. -/
def load (space : Nat → Nat) (h : Heap) (f : σ → Entry → Outcome ε σ) (s : σ) (c : Collector) :
    Outcome (LoadError ε) (σ × Collector) :=
  if c.size = 0 then .ok (s, c)
  else if c.providers = [] then do
    let b := c.buffer.sort
    let s ← loadEntries f s b.entries
    .ok (s, { c with buffer := b.clear })
  else do
    let c ← lift (flushBuffer space c)
    let (q, ps) ← lift (fillQueue c.providers)
    let (s, ps) ← mergeLoop h f (q.length + leftToRead ps) s q ps
    .ok (s, { c with providers := ps, size := 0 })

end Collector

end Silkworm.Etl
