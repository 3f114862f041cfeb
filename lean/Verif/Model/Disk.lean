import Verif.Model.Records
/-
The file on disk: positioned writes (`RootFileWriter::write_at`, riofs/file.rs 105-141) and reads
(`RootFileReader::read_at`, 60-96).
-/
namespace Verif

/-- One `seek(SeekFrom::Start(pos))` followed by `write_all(data)` (file.rs 125-133). -/
structure DiskWrite where
  pos : Nat
  data : List Byte
  deriving DecidableEq, Repr

/-- POSIX semantics of a positioned write: a gap after the end is filled with zeros, an empty write
changes nothing. -/
def writeAt (img : List Byte) (w : DiskWrite) : List Byte :=
  if w.data = [] then img
  else img.take w.pos ++ List.replicate (w.pos - img.length) 0 ++ w.data ++
    img.drop (w.pos + w.data.length)

/-- The contents of the file once the given writes have reached the disk, in order (oldest first);
`File::create` truncates the file. -/
def image (ws : List DiskWrite) : List Byte := ws.foldl writeAt []

/-- file.rs 87-95 `read_at`: seeking to a "negative" position is an I/O error, a "negative" length
aborts in `vec!`, `read_exact` fails at the end of the file. -/
def readAt (img : List Byte) (pos len : Int) : Res (List Byte) :=
  if pos < 0 then .error (.err .io)
  else if len < 0 then .error .panic
  else if pos.toNat + len.toNat ≤ img.length then .ok ((img.drop pos.toNat).take len.toNat)
  else if len = 0 then .ok []
  else .error (.err .io)

/-- What can be on disk when the process stops: the first `n` writes, and the first `k` bytes of the
next one. -/
def crashImage (ws : List DiskWrite) (n k : Nat) : List Byte :=
  match ws[n]? with
  | none => image (ws.take n)
  | some w => writeAt (image (ws.take n)) { w with data := w.data.take k }

/-- What is on disk while the writer is alive: `BufWriter` (8192 bytes) flushes what it holds at each
seek, then keeps a write shorter than its buffer in memory until the next seek or until it is
dropped. -/
def diskWhileOpen (ws : List DiskWrite) : List Byte :=
  match ws.getLast? with
  | none => []
  | some w => if w.data.length < 8192 then image ws.dropLast else image ws

end Verif
