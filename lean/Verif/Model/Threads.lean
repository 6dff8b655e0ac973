import Verif.Model.Reader

/-!
# Threads that use readers

`Model/Reader.lean` models a call as one step.  Here the calls that read from the file are split into the operations on
the file object they consist of, so that the operations of several threads can alternate.  One operation of a file
object is one step (in CPython `seek` and `read` of a buffered file hold its lock).  Calls that do not read from the file
are one step.
-/

namespace Segpy

/-- What a call still has to do with the file. -/
inductive FileProg (α : Type) where
  | done (result : Res α)
  | seek (pos : Int) (next : FileProg α)
  | read (n : Int) (next : Bytes → FileProg α)

/-- One operation on the file. -/
def FileProg.step {α : Type} : FileProg α → FileH → FileProg α × FileH
  | .done x, s => (.done x, s)
  | .seek pos next, s =>
    match FileM.seek pos s with
    | (.ok _, s') => (next, s')
    | (.error err, s') => (.done (.error err), s')
  | .read n next, s =>
    match FileM.read n s with
    | (.ok buf, s') => (next buf, s')
    | (.error err, s') => (.done (.error err), s')

/-- All operations, one after the other. -/
def FileProg.run {α : Type} : FileProg α → FileH → Res α × FileH
  | .done x, s => (x, s)
  | .seek pos next, s =>
    match FileM.seek pos s with
    | (.ok _, s') => next.run s'
    | (.error err, s') => (.error err, s')
  | .read n next, s =>
    match FileM.read n s with
    | (.ok buf, s') => (next buf).run s'
    | (.error err, s') => (.error err, s')

/-- The operations of `trace_samples`, reader.py:472-496, toolkit.py:480-496. -/
def Reader.samplesProg (r : Reader) (native : Endian) (trace_index : Int) (start stop : Option Int) :
    FileProg (List PyNum) :=
  match r.locateSamples trace_index start stop with
  | .error err => .done (.error err)
  | .ok (pos, seg_y_type, num_items) =>
    let block_size := (seg_y_type.size : Int) * num_items
    .seek pos (.read block_size fun buf => .done (
      if (buf.length : Int) < block_size then .error .eofError
      else do
        let values ← if seg_y_type = .ibm then unpackIbmFloats buf num_items else unpackValues native buf seg_y_type r.endian
        if (values.length : Int) ≠ num_items then .error .assertionError else .ok values))

/-- The operations of `trace_header`, reader.py:498-515, toolkit.py:450-458. -/
def Reader.headerProg (r : Reader) (trace_index : Int) (packer : Option HeaderPacker) : FileProg Header :=
  match (do
    let n ← r.numTraces
    if ¬ (0 ≤ trace_index ∧ trace_index < n) then .error .valueError
    else r.trace_offset_catalog.get trace_index : Res Int) with
  | .error err => .done (.error err)
  | .ok pos =>
    .seek pos (.read TRACE_HEADER_NUM_BYTES fun data => .done (
      match (packer.getD r.trace_header_packer).unpack data with
      | .ok h => .ok h
      | .error err => .error (if err.isValueError then .eofError else err)))

/-- A thread that makes calls on a reader, one after the other, and keeps the answers. -/
structure Thread where
  reader : Reader
  upcoming : List Call
  samples : Option (FileProg (List PyNum)) := none
  header : Option (FileProg Header) := none
  answers : List (Res Answer) := []

/-- One step of a thread. -/
def Thread.step (native : Endian) (t : Thread) (s : FileH) : Thread × FileH :=
  match t.samples, t.header, t.upcoming with
  | some (.done x), _, _ => ({ t with samples := none, answers := t.answers ++ [x.map .samples] }, s)
  | some p, _, _ => ({ t with samples := some (p.step s).1 }, (p.step s).2)
  | none, some (.done x), _ => ({ t with header := none, answers := t.answers ++ [x.map .header] }, s)
  | none, some p, _ => ({ t with header := some (p.step s).1 }, (p.step s).2)
  | none, none, .traceSamples i start stop :: rest =>
    ({ t with upcoming := rest, samples := some (t.reader.samplesProg native i start stop) }, s)
  | none, none, .traceHeader i packer :: rest =>
    ({ t with upcoming := rest, header := some (t.reader.headerProg i packer) }, s)
  | none, none, c :: rest =>
    ({ t with reader := (t.reader.call native c s).2.1, upcoming := rest, answers := t.answers ++ [(t.reader.call native c s).1] },
      (t.reader.call native c s).2.2)
  | none, none, [] => (t, s)

/-- The thread has made all its calls. -/
def Thread.finished (t : Thread) : Bool := t.samples.isNone && t.header.isNone && t.upcoming.isEmpty

/-- Threads, each with a file object of its own. -/
abbrev OwnFiles := Nat → Thread × FileH

/-- The threads take steps in the order of the schedule. -/
def OwnFiles.run (native : Endian) : List Nat → OwnFiles → OwnFiles
  | [], w => w
  | i :: schedule, w =>
    OwnFiles.run native schedule (fun j => if j = i then (w i).1.step native (w i).2 else w j)

/-- Threads that share one file object. -/
structure SharedFile where
  threads : Nat → Thread
  file : FileH

/-- The threads take steps in the order of the schedule. -/
def SharedFile.run (native : Endian) : List Nat → SharedFile → SharedFile
  | [], w => w
  | i :: schedule, w =>
    SharedFile.run native schedule
      { threads := fun j => if j = i then ((w.threads i).step native w.file).1 else w.threads j
        file := ((w.threads i).step native w.file).2 }

/-- Readers that share one file object; they are called one after the other, whichever comes next.  The result is the list
of answers. -/
def sharedCalls (native : Endian) : List (Nat × Call) → (Nat → Reader) → FileH → List (Res Answer)
  | [], _, _ => []
  | (i, c) :: rest, readers, s =>
    let q := (readers i).call native c s
    q.1 :: sharedCalls native rest (fun j => if j = i then q.2.1 else readers j) q.2.2

end Segpy
