import Verif.Py.Basic

/-!
# A binary file-like object

Contents, position, and for crash modelling the number of further bytes that reach the disk.  Only the behaviour of
Python's buffered binary files that segpy uses is modelled; there is one process and no concurrent modification.
-/

namespace Segpy

/-- An open binary file.  `limit = some k` says that the device takes `k` more bytes and then fails: the write that
crosses the limit stores what fits and raises `OSError`.  `none` is a device that never fails. -/
structure FileH where
  data : Bytes
  pos : Nat
  limit : Option Nat := none
  deriving DecidableEq, Repr

/-- A computation on an open file: it may raise, and its effects on the file remain if it does. -/
def FileM (α : Type) := FileH → Res α × FileH

namespace FileM

/-- Return a value. -/
protected def pure {α : Type} (a : α) : FileM α := fun s => (.ok a, s)

/-- Sequencing; a raised exception skips the rest. -/
protected def bind {α β : Type} (m : FileM α) (f : α → FileM β) : FileM β := fun s =>
  match m s with
  | (.ok a, s') => f a s'
  | (.error e, s') => (.error e, s')

instance : Monad FileM where
  pure := FileM.pure
  bind := FileM.bind

/-- Raise. -/
def raise {α : Type} (e : Err) : FileM α := fun s => (.error e, s)

/-- A computation that does not touch the file. -/
def lift {α : Type} (r : Res α) : FileM α := fun s => (r, s)

/-- `fh.tell()`. -/
def tell : FileM Nat := fun s => (.ok s.pos, s)

/-- `fh.seek(pos)`; a negative position raises. -/
def seek (pos : Int) : FileM Unit := fun s =>
  if pos < 0 then (.error .valueError, s) else (.ok (), { s with pos := pos.toNat })

/-- `fh.read(n)`: at most `n` bytes, advancing the position by the number of bytes read.  Reading a negative number of
bytes reads to the end. -/
def read (n : Int) : FileM Bytes := fun s =>
  let rest := s.data.drop s.pos
  let bs := if n < 0 then rest else rest.take n.toNat
  (.ok bs, { s with pos := s.pos + bs.length })

/-- The contents after storing `bs` at `pos`; a gap beyond the end is filled with zero bytes. -/
def overwrite (data : Bytes) (pos : Nat) (bs : Bytes) : Bytes :=
  if bs.isEmpty then data
  else data.take pos ++ List.replicate (pos - data.length) 0 ++ bs ++ data.drop (pos + bs.length)

/-- `fh.write(bs)`. -/
def write (bs : Bytes) : FileM Unit := fun s =>
  match s.limit with
  | none => (.ok (), { s with data := overwrite s.data s.pos bs, pos := s.pos + bs.length })
  | some k =>
    if bs.length ≤ k then
      (.ok (), { data := overwrite s.data s.pos bs, pos := s.pos + bs.length, limit := some (k - bs.length) })
    else
      let bs' := bs.take k
      (.error .osError, { data := overwrite s.data s.pos bs', pos := s.pos + bs'.length, limit := some 0 })

end FileM

end Segpy
