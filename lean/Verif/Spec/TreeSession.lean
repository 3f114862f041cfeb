import Verif.Spec.Baskets
import Verif.Spec.Reopen
import Verif.Spec.TreeRecords
import Verif.Spec.Feeds
import Verif.Model.BranchRead
/-
A tree written in a session, and the limits of what the format and the reader can hold.
-/
namespace Verif

/-- A tree is made with `new_branch`, and the iterators give these columns until all of them have once had
nothing.  (An iterator may have nothing and go on later.) -/
def MadeOf (tn : Str) (callbacks : Nat) (cols : List Column) (t : WTree) : Prop :=
  ∃ feeds, storedColumns feeds = cols ∧ buildFeeds tn callbacks feeds = .ok t

/-- A file is created and used by any calls, a tree of the given columns is made and written to it, the
file is used further and closed: `f0` is the new file, `f1` and `f2` the file before and after the tree
is written, `f` the file before `close` and `f'` the closed one. -/
structure TreeWritten (env : Env) (path : Str) (ids : Nat) (before after : List Op) (tn : Str) (callbacks : Nat)
    (cols : List Column) (places : Places) (f0 f1 f2 f f' : FileW) : Prop where
  create : createFile (FileW.initial path ids) = (.ok (), f0)
  small : f0.Below2GB
  before : Runs env f0 before f1
  tree : ∃ t t', MadeOf tn callbacks cols t ∧ t.write env places f1 = (.ok t', f2)
  small2 : f2.Below2GB
  after : Runs env f2 after f
  close : Closes env f f'

/-- The same with a tree made in any way: what the calls that make it answer is given. -/
structure TreeSession (env : Env) (path : Str) (ids : Nat) (before after : List Op) (made : Res WTree)
    (places : Places) (f0 f1 f2 f f' : FileW) : Prop where
  create : createFile (FileW.initial path ids) = (.ok (), f0)
  small : f0.Below2GB
  before : Runs env f0 before f1
  tree : ∃ t t', made = .ok t ∧ t.write env places f1 = (.ok t', f2)
  small2 : f2.Below2GB
  after : Runs env f2 after f
  close : Closes env f f'

/-- A class record, if it is the one of class `c`, describes a vector. -/
def DescribesVector (c : Str) (si : StreamerInfo) : Prop :=
  si.named.name = c → ∀ s ∈ si.elems, ∃ e v k, s = .stl e v k ∧ e.ename = c

/-- A column of the tree `tn` within what the format can hold. -/
structure Column.Holds (tn : Str) (c : Column) : Prop where
  text : utf8 c.name = true
  short : c.name.length + tn.length ≤ 32600
  values : ∀ v ∈ c.vals, c.ty.Ok v
  /-- the reader takes the header of a vector of 16 MB or more for something else -/
  vectors : ∀ e, c.ty = .vec e → ∀ v ∈ c.vals, (entryBytes c.ty v).length < 2 ^ 24
  arrays : ∀ n e, c.ty = .arr n e → n < 2 ^ 31

/-- The names of the objects put before the tree, the tree, and those put after it. -/
def treeNames (env : Env) (tn : Str) (before after : List Op) (f0 f2 : FileW) : List Str :=
  (acceptedPuts env f0 before).map Prod.fst ++ tn :: (acceptedPuts env f2 after).map Prod.fst

/-- Everything that was stored is within what the format can hold. -/
structure TreeHolds (env : Env) (path : Str) (before after : List Op) (tn : Str) (cols : List Column)
    (places : Places) (f0 f2 f' : FileW) : Prop where
  process : env.Sound
  text : utf8 path = true
  short : path.length ≤ 478
  objects : ∀ p ∈ acceptedPuts env f0 before ++ acceptedPuts env f2 after, Storable p
  records : ∀ op ∈ before ++ after, op.Describable
  listBytes : f'.header.nBytesInfo < 2 ^ 30
  listLength : f'.sinfos.length < 2 ^ 31
  apart : ∀ j, f'.ids ≤ env.addr j
  fewPuts : ∀ n, (treeNames env tn before after f0 f2).count n ≤ 32767
  treeText : utf8 tn = true
  treeShort : tn.length ≤ 32600
  /-- no `;` in the name of the tree (see C45) -/
  plain : (59 : Byte) ∉ tn
  /-- nothing is stored later under the name of the tree -/
  last : ∀ p ∈ acceptedPuts env f2 after, p.1 ≠ tn
  columns : ∀ c ∈ cols, c.Holds tn
  few : cols.length < 2 ^ 31
  entries : longest cols < 2 ^ 31
  /-- in memory, the branches and their leaves are different objects -/
  memory : ∀ i, (places i).2.length = 1
  distinct : ((List.range cols.length).flatMap fun i => (places i).1 :: (places i).2).Nodup
  /-- positions inside the record of the tree have 30 bits -/
  record : ∀ k ∈ f'.dir.keys, k.name = tn → k.nBytes < 2 ^ 30
  /-- a class record under the name of a vector class is one of a vector -/
  dictionary : ∀ c ∈ cols, ∀ e, c.ty = .vec e → ∀ cn, c.ty.wrClassName = .ok cn →
    ∀ n v s, env.db n v = some s → DescribesVector cn s
  announced : ∀ c ∈ cols, ∀ e, c.ty = .vec e → ∀ cn, c.ty.wrClassName = .ok cn →
    ∀ si, Op.register si ∈ before ++ after → DescribesVector cn si

end Verif
