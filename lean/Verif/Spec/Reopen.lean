import Verif.Spec.Directory
import Verif.Spec.Streamers
import Verif.Model.Open
/-
What is expected of a file that is opened again.
-/
namespace Verif

/-- A class record the format can hold (see C41), whatever the numbers that identify its parts. -/
structure StreamerInfo.Describable (s : StreamerInfo) : Prop where
  named : s.named.Fits
  chksum : InU 4 s.chksum
  clsver : InI 4 s.clsver
  elems : ∀ e ∈ s.elems, e.Storable
  few : s.elems.length < 2 ^ 31

/-- The process: all the class records of the bundled dictionary can be held by the format, different
objects have different addresses. -/
structure Env.Sound (env : Env) : Prop where
  dictionary : ∀ name vers s, env.db name vers = some s → s.Describable
  addresses : ∀ i j, env.addr i = env.addr j → i = j

/-- A class record announced by the program can be held by the format. -/
def Op.Describable : Op → Prop
  | .register si => si.Describable
  | _ => True

/-- An object whose key the format can hold: text, and lengths that fit in a 16 bit key length. -/
structure Storable (p : Str × PutObj) : Prop where
  name : utf8 p.1 = true
  title : utf8 p.2.title = true
  cls : utf8 p.2.cls = true
  short : p.1.length + p.2.title.length + p.2.cls.length ≤ 32700

/-- A file written from creation to close: `f0` is the new file, `f` the file before `close`, `f'` the
closed one. -/
structure Written (env : Env) (path : Str) (ids : Nat) (ops : List Op) (f0 f f' : FileW) : Prop where
  create : createFile (FileW.initial path ids) = (.ok (), f0)
  small : f0.Below2GB
  runs : Runs env f0 ops f
  close : Closes env f f'

/-- Everything that was stored is within what the format can hold. -/
structure Holds (env : Env) (path : Str) (ops : List Op) (f0 f' : FileW) : Prop where
  process : env.Sound
  text : utf8 path = true
  /-- the reader refuses a directory whose name record is longer than 1000 bytes -/
  short : path.length ≤ 478
  objects : ∀ p ∈ acceptedPuts env f0 ops, Storable p
  records : ∀ op ∈ ops, op.Describable
  /-- positions inside the list of class records have 30 bits -/
  listBytes : f'.header.nBytesInfo < 2 ^ 30
  listLength : f'.sinfos.length < 2 ^ 31
  /-- an address is never one of the numbers handed out for class records -/
  apart : ∀ j, f'.ids ≤ env.addr j

/-- The class a reader reports: directories have two names. -/
def shownClass (cls : Str) : Str := if cls = b! "TDirectory" then b! "TDirectoryFile" else cls

end Verif
