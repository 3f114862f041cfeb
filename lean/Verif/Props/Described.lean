import Verif.Props.TreeSession
import Verif.Props.CppNames
import Verif.Lemmas.Interpret
import Verif.Spec.Described
/-
C54: a column is shown as the Rust type it can be read as.
C55: columns are described as ROOT describes them.
-/
namespace Verif

attribute [local irreducible] cleanTypeName

/-! ### Auxiliary facts -/

theorem findStr_some {pat : Str} : ∀ {s : Str} {i : Nat}, findStr pat s = some i → ∃ a c, s = a ++ pat ++ c := by
  intro s
  induction s with
  | nil =>
    intro i h
    unfold findStr at h
    split at h
    · next hp => exact ⟨[], [], by rw [hp]; rfl⟩
    · cases h
  | cons b s ih =>
    intro i h
    unfold findStr at h
    split at h
    · next hp =>
      obtain ⟨c, hc⟩ := List.isPrefixOf_iff_prefix.1 hp
      exact ⟨[], c, hc.symm⟩
    · obtain ⟨j, hj, -⟩ := Option.map_eq_some_iff.1 h
      obtain ⟨a, c, e⟩ := ih hj
      exact ⟨b :: a, c, by rw [e]; rfl⟩

theorem ok_of_toOption {x : Res Str} {y : Str} (e : x.toOption = some y) : x = .ok y := by
  cases x with
  | error e' => cases e
  | ok z => exact congrArg Except.ok (Option.some.inj e)

theorem interpretation_of {r : Reader} {top : Bool} {b : Branch} {n : Str} (hn : b.itemTypeName r top = .ok n) :
    b.interpretation r top = rustTypeName n := by
  unfold Branch.interpretation
  rw [Res.bind_ok hn]

theorem Column.MadeAs.plain {c : Column} {b : Branch} (h : c.MadeAs b) : c.ty.Plain := by
  obtain ⟨l0, l, h1, -, -, -, -, h2⟩ := h
  obtain ⟨t, name, vals⟩ := c
  dsimp only at *
  cases t with
  | vec e =>
    have := h2 e rfl
    cases e <;> first
      | trivial
      | exact absurd rfl this
  | arr n e =>
    unfold Leaf.new at h1
    dsimp only at h1
    split at h1
    · cases h1
    · split at h1
      · cases h1
      · next k u hk =>
        cases e <;> first
          | exact ⟨rfl, by decide⟩
          | cases hk
  | _ => trivial

theorem LeafLike.var {k : LeafKind} {v : Int} {t : TLeaf} {min max : Int} {l : Leaf} (h : LeafLike (.var k v t min max) l) :
    ∃ len max', l = .var k v { t with len := len } min max' ∧ (k ≠ .C → len = t.len) := by
  cases h with
  | same => exact ⟨t.len, max, rfl, fun _ => rfl⟩
  | string => exact ⟨_, _, rfl, fun h => absurd rfl h⟩

/-! ### C54 -/

/-- C54, any branch: when the type of its items is known and is one a value can be read as, the branch is shown as
that type.  Missing: `C54_false`. -/
theorem C54_shown_partial {r : Reader} {top : Bool} {b : Branch} {n : Str} {t : Ty} (ht : t.Plain)
    (hn : b.itemTypeName r top = .ok n) (hmem : n ∈ t.rdClassNames) (hT : ∀ a c, n ≠ a ++ b! "TString" ++ c) :
    b.interpretation r top = .ok t.rustName := by
  rw [interpretation_of hn]
  refine rustName_nest ht hmem 0 ?_
  cases h : findStr (b! "TString") n with
  | none => rfl
  | some i =>
    obtain ⟨a, c, e⟩ := findStr_some h
    exact absurd e (hT a c)

example : (demoNamed (b! "vector<vector<unsigned int> >")).interpretation emptyReader true = .ok (b! "Vec<Vec<u32>>") :=
  C54_shown_partial (t := .vec (.vec .u32)) trivial ((demoNamed_named _).itemType true)
    (show _ from clean_spelled (s := b! "unsigned int") (t := .u32) (spellings_clean (b! "unsigned int", .u32) (by decide)).1 [0, 1])
    (by
      intro a c e
      have h1 : (84 : Byte) ∈ a ++ b! "TString" ++ c := by simp
      rw [← e] at h1
      exact absurd h1 (by decide +kernel))

/-- C54, other containers: numbers of varying number are shown as `Slice`, and sets of numbers and strings as
`HashSet`. -/
theorem C54_containers_partial {r : Reader} {top : Bool} {b : Branch} {s : Str} {t : Ty} (hs : (s, t) ∈ atomNames) :
    (b.itemTypeName r top = .ok (s ++ b! "[]") → b.interpretation r top = .ok (b! "Slice<" ++ t.rustName ++ b! ">")) ∧
    (b.itemTypeName r top = .ok (b! "set<" ++ s ++ b! ">") →
      b.interpretation r top = .ok (b! "HashSet<" ++ t.rustName ++ b! ">")) := by
  have h : ∀ p ∈ atomNames, (rustTypeName (p.1 ++ b! "[]")).toOption = some (b! "Slice<" ++ p.2.rustName ++ b! ">") ∧
      (rustTypeName (b! "set<" ++ p.1 ++ b! ">")).toOption = some (b! "HashSet<" ++ p.2.rustName ++ b! ">") := by
    decide +kernel
  exact ⟨fun hn => by rw [interpretation_of hn]; exact ok_of_toOption (h _ hs).1,
    fun hn => by rw [interpretation_of hn]; exact ok_of_toOption (h _ hs).2⟩

example : (demoNamed (b! "set<float>")).interpretation emptyReader true = .ok (b! "HashSet<f32>") :=
  (C54_containers_partial (t := .f32) (s := b! "float") (by decide)).2 (by
    rw [(demoNamed_named _).itemType true, show cleanTypeName (b! "set<float>") = b! "set<float>" by decide +kernel]
    rfl)

/-- What is missing from C54: a column of `TString`, which is read as `String`, is shown as `TString`; and arrays of
arrays and arrays of strings are not shown as Rust types. -/
theorem C54_false :
    (∃ b : Branch, ∀ r top, b.itemTypeName r top = .ok (b! "TString") ∧ b! "TString" ∈ Ty.string.rdClassNames ∧
      b.interpretation r top = .ok (b! "TString")) ∧
    b! "int32_t[2][3]" ∈ (Ty.arr 3 (.arr 2 .i32)).rdClassNames ∧ (rustTypeName (b! "int32_t[2][3]")).toOption = some (b! "[i32;2][3]") ∧
    b! "string[3]" ∈ (Ty.arr 3 .string).rdClassNames ∧ (rustTypeName (b! "string[3]")).toOption = some (b! "String[3]") := by
  refine ⟨⟨.mk { leaves := [.element 1 {} 0 65] } (some { stype := 65 }) [], fun r top => ?_⟩, by decide +kernel⟩
  have hi : Branch.itemTypeName r top (.mk { leaves := [.element 1 {} 0 65] } (some { stype := 65 }) []) =
      .ok (b! "TString") := rfl
  refine ⟨hi, by decide, ?_⟩
  rw [interpretation_of hi]
  exact ok_of_toOption (by decide +kernel)

variable {env : Env} {path tn : Str} {ids : Nat} {before after : List Op} {cb : Nat} {cols : List Column}
  {places : Places} {f0 f1 f2 f f' : FileW}

/-- C54 for written trees: every column is shown as the type it was written with.  Missing: columns whose name has
square brackets, see `C38_false`. -/
theorem C54_written_partial (hw : TreeWritten env path ids before after tn cb cols places f0 f1 f2 f f')
    (hh : TreeHolds env path before after tn cols places f0 f2 f') (dec : Decoders) (fuel : Nat) (hfuel : 3 ≤ fuel) :
    ∃ (r : FileR) (td : TreeData) (bs : List Branch), openFile dec fuel (image f'.trace) = .ok r ∧
      r.getTree dec fuel tn = .ok (td, bs, none) ∧ bs.length = cols.length ∧
      ∀ (i : Nat) (c : Column) (b : Branch), cols[i]? = some c → bs[i]? = some b →
        (91 : Byte) ∉ c.name → (93 : Byte) ∉ c.name → ∀ top, b.interpretation (r.reader dec) top = .ok c.ty.rustName := by
  obtain ⟨r, td, bs, h1, h2, -, -, h3, h⟩ := tree_reopened hw hh dec fuel hfuel
  refine ⟨r, td, bs, h1, h2, h3, fun i c b hc hb hl hr top => ?_⟩
  obtain ⟨-, -, -, -, hi, hm⟩ := h i c b hc hb
  obtain ⟨n, hn, hin, hs⟩ := hi hl hr top
  have hp := hm.plain
  obtain ⟨l0, l, m1, -, -, -, -, m2⟩ := hm
  refine C54_shown_partial hp hin hn ?_
  intro a d e
  have hT : (84 : Byte) ∈ n := by rw [e]; simp
  by_cases hstr : c.ty = .string
  · rw [hs hstr] at hT
    exact absurd hT (by decide)
  · have key : ∀ {t : Ty}, t.isAtom = true → t ≠ .string → ∀ {s : Str}, s ∈ t.rdClassNames → (84 : Byte) ∉ s := by
      intro t h1 h2 s hs
      exact (by decide : ∀ p ∈ atomNames, (84 : Byte) ∉ p.1) _ (atom_mem h1 h2 hs)
    obtain ⟨t, name, vals⟩ := c
    dsimp only at *
    cases t with
    | vec e =>
      have := m2 e rfl
      obtain ⟨x, hx, hxn⟩ := List.mem_map.1 hn
      rw [← hxn] at hT
      have hx' : (84 : Byte) ∉ x := key (by cases e <;> first | rfl | exact absurd rfl this)
        (by rintro rfl; exact this rfl) hx
      simp [hx'] at hT
    | arr m e =>
      obtain ⟨x, hx, hxn⟩ := List.mem_map.1 hn
      rw [← hxn] at hT
      have hx' : (84 : Byte) ∉ x := key hp.1 hp.2 hx
      have hd : (84 : Byte) ∉ decimal m := fun h => absurd (decimal_digits m _ h) (by decide)
      simp [hx', hd] at hT
    | string => exact hstr rfl
    | _ => exact key rfl (by decide) hn hT

example (dec : Decoders) : ∃ (r : FileR) (td : TreeData) (bs : List Branch),
    openFile dec 3 (image demoTreeClosed.trace) = .ok r ∧ r.getTree dec 3 (b! "t") = .ok (td, bs, none) ∧
    ∀ b, bs[2]? = some b → b.interpretation (r.reader dec) true = .ok (b! "Vec<f64>") := by
  obtain ⟨r, td, bs, h1, h2, -, h⟩ := C54_written_partial demo_session_written demo_session_holds dec 3 (Nat.le_refl _)
  exact ⟨r, td, bs, h1, h2, fun b hb => h 2 _ b rfl hb (by decide) (by decide) true⟩

/-! ### C55 -/

theorem leafKind_leafOf {t : Ty} {k : LeafKind} {u : Bool} (h : t.leafKind = some (k, u)) :
    t.leafOf = some (k, u, (t.sizeOf : Int)) ∧ k ≠ .C ∧ t.sizeOf ≠ 0 ∧ t.sizeOf ≤ 8 ∧ t.isAtom = true ∧ t ≠ .string := by
  cases t <;> cases h <;> exact ⟨rfl, by decide, by decide, by decide, rfl, by decide⟩

/-- C55: in the file a column is described as ROOT does it.  A number or a boolean has a leaf of the class of its
type, with the size and the sign of the type, and numbers the letter of the type in the title; an array has the same
leaf with the number of items; a vector is a `TBranchElement` of the class `vector<...>`.  Missing: the size of an
item of a column of strings and the letter of booleans, see `C55_false`. -/
theorem C55_described_partial (hw : TreeWritten env path ids before after tn cb cols places f0 f1 f2 f f')
    (hh : TreeHolds env path before after tn cols places f0 f2 f') (dec : Decoders) (fuel : Nat) (hfuel : 3 ≤ fuel) :
    ∃ (r : FileR) (td : TreeData) (bs : List Branch), openFile dec fuel (image f'.trace) = .ok r ∧
      r.getTree dec fuel tn = .ok (td, bs, none) ∧ bs.length = cols.length ∧
      ∀ (i : Nat) (c : Column) (b : Branch), cols[i]? = some c → bs[i]? = some b →
        b.name = c.name ∧
        (∀ kind unsigned size, c.ty.leafOf = some (kind, unsigned, size) →
          b.elem = none ∧ b.HasLeaf kind unsigned size 1 c.name c.name) ∧
        (∀ letter, c.ty.titleLetter = some letter → b.data.named.title = c.name ++ b! "/" ++ letter) ∧
        (∀ n e, c.ty = .arr n e → ∃ kind unsigned size, e.leafOf = some (kind, unsigned, size) ∧ b.elem = none ∧
          (n * size < 2 ^ 31 → b.HasLeaf kind unsigned size n c.name (c.name ++ b! "[" ++ decimal n ++ b! "]"))) ∧
        (c.ty = .string → b.elem = none ∧ ∃ size len, b.HasLeaf .C false size len c.name c.name) ∧
        (∀ e, c.ty = .vec e → ∃ s be, e.cppName = some s ∧ b.elem = some be ∧ be.className = b! "vector<" ++ s ++ b! ">" ∧
          ∃ v tl id code, b.data.leaves = [.element v tl id code] ∧ tl.named.name = c.name) := by
  obtain ⟨r, td, bs, h1, h2, -, -, h3, h⟩ := tree_reopened hw hh dec fuel hfuel
  refine ⟨r, td, bs, h1, h2, h3, fun i c b hc hb => ?_⟩
  obtain ⟨hname, -, -, -, -, l0, l, hl0, hlike, hleaf, helem, htitle, hvec⟩ := h i c b hc hb
  have harr := (hh.columns c (List.mem_of_getElem? hc)).arrays
  refine ⟨hname, ?_, ?_, ?_, ?_, ?_⟩
  · intro k u size hk
    obtain ⟨t, name, vals⟩ := c
    dsimp only at *
    cases t <;> cases hk <;> cases hl0 <;> obtain ⟨len, max', rfl, hlen⟩ := hlike.var <;>
      refine ⟨helem, _, _, _, _, hleaf, rfl, rfl, hlen (by decide), rfl, rfl⟩
  · intro letter hk
    obtain ⟨t, name, vals⟩ := c
    dsimp only at *
    cases t <;> cases hk <;> exact htitle
  · intro n e he
    have hlt := harr n e he
    obtain ⟨t, name, vals⟩ := c
    dsimp only at *
    subst he
    have has : asI 4 (n : Int) = n := asI_of (by decide) (inI4_of (by omega) (by omega))
    unfold Leaf.new at hl0
    dsimp only at hl0
    rw [has] at hl0
    split at hl0
    · cases hl0
    · next hn =>
      split at hl0
      · cases hl0
      · next k u hk =>
        obtain ⟨g1, g2, g3, g4, -, -⟩ := leafKind_leafOf hk
        refine ⟨k, u, _, g1, helem, fun hsz => ?_⟩
        cases hl0
        obtain ⟨len, max', rfl, hlen⟩ := hlike.var
        refine ⟨_, _, _, _, hleaf, rfl, ?_, hlen g2, rfl, ?_⟩
        · show (asI 4 ((Ty.arr n e).sizeOf : Int)).tdiv n = _
          have e1 : ((Ty.arr n e).sizeOf : Int) = n * (e.sizeOf : Int) := by simp [Ty.sizeOf]
          rw [e1, asI_of (by decide) (inI4_of (by
            have : (0 : Int) ≤ n * (e.sizeOf : Int) := by rw [← Int.natCast_mul]; omega
            omega) (by omega))]
          exact Int.mul_tdiv_cancel_left _ hn
        · show name ++ b! "[" ++ decimalI n ++ b! "]" = _
          rw [decimalI_nat]
  · intro he
    obtain ⟨t, name, vals⟩ := c
    dsimp only at *
    subst he
    cases hl0
    obtain ⟨len, max', rfl, hlen⟩ := hlike.var
    exact ⟨helem, _, _, _, _, _, _, hleaf, rfl, rfl, rfl, rfl, rfl⟩
  · intro e he
    have hv := hvec e he
    obtain ⟨t, name, vals⟩ := c
    dsimp only at *
    subst he
    unfold Leaf.new at hl0
    obtain ⟨_, -, hl0⟩ := Res.ok_bind.1 hl0
    cases hl0
    cases hlike
    cases e <;> first
      | exact ⟨_, _, rfl, helem, rfl, _, _, _, _, hleaf, rfl⟩
      | exact absurd rfl hv

/-- The small tree: numbers, strings and vectors. -/
example (dec : Decoders) : ∃ (r : FileR) (td : TreeData) (bs : List Branch),
    openFile dec 3 (image demoTreeClosed.trace) = .ok r ∧ r.getTree dec 3 (b! "t") = .ok (td, bs, none) ∧
    (∀ b, bs[0]? = some b → b.HasLeaf .I false 4 1 (b! "x") (b! "x") ∧ b.data.named.title = b! "x/I") ∧
    (∀ b, bs[2]? = some b → ∃ be, b.elem = some be ∧ be.className = b! "vector<double>") := by
  obtain ⟨r, td, bs, h1, h2, -, h⟩ := C55_described_partial demo_session_written demo_session_holds dec 3 (Nat.le_refl _)
  refine ⟨r, td, bs, h1, h2, fun b hb => ?_, fun b hb => ?_⟩
  · obtain ⟨-, h3, h4, -⟩ := h 0 _ b rfl hb
    exact ⟨(h3 _ _ _ rfl).2, h4 _ rfl⟩
  · obtain ⟨-, -, -, -, -, h3⟩ := h 2 _ b rfl hb
    obtain ⟨s, be, e1, e2, e3, -⟩ := h3 _ rfl
    cases e1
    exact ⟨be, e2, e3⟩

/-- What is missing from C55: columns of strings have 24 as the size of an item, where ROOT has 1, and the title of a
column of booleans has the letter of signed 8-bit numbers, `B`, where ROOT has `O`. -/
theorem C55_false (hw : TreeWritten env path ids before after tn cb cols places f0 f1 f2 f f')
    (hh : TreeHolds env path before after tn cols places f0 f2 f') (dec : Decoders) (fuel : Nat) (hfuel : 3 ≤ fuel) :
    ∃ (r : FileR) (td : TreeData) (bs : List Branch), openFile dec fuel (image f'.trace) = .ok r ∧
      r.getTree dec fuel tn = .ok (td, bs, none) ∧ bs.length = cols.length ∧
      ∀ (i : Nat) (c : Column) (b : Branch), cols[i]? = some c → bs[i]? = some b →
        (c.ty = .string → ∃ len, b.HasLeaf .C false 24 len c.name c.name) ∧
        (c.ty = .bool → b.data.named.title = c.name ++ b! "/B") := by
  obtain ⟨r, td, bs, h1, h2, -, -, h3, h⟩ := tree_reopened hw hh dec fuel hfuel
  refine ⟨r, td, bs, h1, h2, h3, fun i c b hc hb => ?_⟩
  obtain ⟨-, -, -, -, -, l0, l, hl0, hlike, hleaf, -, htitle, -⟩ := h i c b hc hb
  obtain ⟨t, name, vals⟩ := c
  dsimp only at *
  constructor
  · rintro rfl
    cases hl0
    obtain ⟨len, max', rfl, -⟩ := hlike.var
    exact ⟨len, _, _, _, _, hleaf, rfl, rfl, rfl, rfl, rfl⟩
  · rintro rfl
    exact htitle.trans (by simp [Ty.rootCode])

example (dec : Decoders) : ∃ (r : FileR) (td : TreeData) (bs : List Branch),
    openFile dec 3 (image demoTreeClosed.trace) = .ok r ∧ r.getTree dec 3 (b! "t") = .ok (td, bs, none) ∧
    ∀ b, bs[1]? = some b → ∃ len, b.HasLeaf .C false 24 len (b! "s") (b! "s") := by
  obtain ⟨r, td, bs, h1, h2, -, h⟩ := C55_false demo_session_written demo_session_holds dec 3 (Nat.le_refl _)
  exact ⟨r, td, bs, h1, h2, fun b hb => (h 1 _ b rfl hb).1 rfl⟩

end Verif
