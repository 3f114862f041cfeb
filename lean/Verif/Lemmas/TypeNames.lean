import Verif.Lemmas.BranchRead
/-
The names of the types of the items.
-/
namespace Verif

/-! ### Decimal numbers -/

theorem digitByte {d : Nat} (h : d < 10) : UInt8.ofNat (d.digitChar).toNat = UInt8.ofNat (48 + d) := by
  have : d = 0 ∨ d = 1 ∨ d = 2 ∨ d = 3 ∨ d = 4 ∨ d = 5 ∨ d = 6 ∨ d = 7 ∨ d = 8 ∨ d = 9 := by omega
  rcases this with h | h | h | h | h | h | h | h | h | h <;> subst h <;> rfl

theorem decimal_eq (n : Nat) :
    decimal n = if n < 10 then [UInt8.ofNat (48 + n)] else decimal (n / 10) ++ [UInt8.ofNat (48 + n % 10)] := by
  unfold decimal
  rw [Nat.toDigits_eq_if (by decide)]
  split
  · next h => simp [digitByte h]
  · simp [digitByte (Nat.mod_lt n (by decide : 10 > 0))]

theorem digit_toNat {d : Nat} (h : d < 10) : (UInt8.ofNat (48 + d)).toNat = 48 + d := by
  simp [UInt8.toNat_ofNat']
  omega

theorem digit_isDigit {d : Nat} (h : d < 10) : isDigitByte (UInt8.ofNat (48 + d)) = true := by
  have : d = 0 ∨ d = 1 ∨ d = 2 ∨ d = 3 ∨ d = 4 ∨ d = 5 ∨ d = 6 ∨ d = 7 ∨ d = 8 ∨ d = 9 := by omega
  rcases this with h | h | h | h | h | h | h | h | h | h <;> subst h <;> rfl

theorem decimal_digits (n : Nat) : ∀ b ∈ decimal n, isDigitByte b = true := by
  induction n using Nat.strongRecOn with
  | ind n ih =>
    intro b hb
    rw [decimal_eq] at hb
    split at hb
    · next h => rw [List.mem_singleton.1 hb]; exact digit_isDigit h
    · next h =>
      rcases List.mem_append.1 hb with hb | hb
      · exact ih (n / 10) (by omega) b hb
      · rw [List.mem_singleton.1 hb]; exact digit_isDigit (by omega)

theorem decimal_ne_nil (n : Nat) : decimal n ≠ [] := by
  rw [decimal_eq]
  split <;> simp

theorem digitsVal_snoc (s : Str) (b : Byte) : digitsVal (s ++ [b]) = 10 * digitsVal s + (b.toNat - 48) := by
  simp [digitsVal]

theorem digitsVal_decimal (n : Nat) : digitsVal (decimal n) = n := by
  induction n using Nat.strongRecOn with
  | ind n ih =>
    rw [decimal_eq]
    split
    · next h =>
      have := digitsVal_snoc [] (UInt8.ofNat (48 + n))
      simp only [List.nil_append] at this
      rw [this, digit_toNat h]
      simp [digitsVal]
    · next h =>
      rw [digitsVal_snoc, ih (n / 10) (by omega), digit_toNat (by omega)]
      omega

theorem decimal_head {n : Nat} (h : 0 < n) : (decimal n).head? ≠ some 48 := by
  induction n using Nat.strongRecOn with
  | ind n ih =>
    rw [decimal_eq]
    split
    · next h' =>
      intro hc
      injection hc with hc
      have := congrArg UInt8.toNat hc
      rw [digit_toNat h'] at this
      have e : (48 : UInt8).toNat = 48 := rfl
      omega
    · next h' =>
      have := ih (n / 10) (by omega) (by omega)
      cases hd : decimal (n / 10) with
      | nil => exact absurd hd (decimal_ne_nil _)
      | cons a l => rw [hd] at this; exact this

theorem isDigit_plain {b : Byte} (h : isDigitByte b = true) : b ≠ 91 ∧ b ≠ 93 := by
  constructor <;> rintro rfl <;> cases h

/-! ### Titles -/

theorem dropWhile_all {α} {p : α → Bool} {l : List α} (h : ∀ a ∈ l, p a = true) (m : List α) :
    (l ++ m).dropWhile p = m.dropWhile p := by
  induction l with
  | nil => rfl
  | cons a l ih =>
    rw [List.cons_append, List.dropWhile_cons, if_pos (h a (List.mem_cons_self ..))]
    exact ih fun x hx => h x (List.mem_cons_of_mem _ hx)

theorem takeWhile_all {α} {p : α → Bool} {l : List α} (h : ∀ a ∈ l, p a = true) (m : List α) :
    (l ++ m).takeWhile p = l ++ m.takeWhile p := by
  induction l with
  | nil => rfl
  | cons a l ih =>
    rw [List.cons_append, List.takeWhile_cons, if_pos (h a (List.mem_cons_self ..)),
      ih fun x hx => h x (List.mem_cons_of_mem _ hx)]
    rfl

theorem titleHasDims_plain {s : Str} (h : (91 : Byte) ∉ s) : titleHasDims s = false := by
  unfold titleHasDims
  split
  · next t ht =>
    exact absurd ((List.dropWhile_suffix _).subset (ht ▸ List.mem_cons_self ..)) h
  · rfl

theorem leafDim_plain {s : Str} (h : (91 : Byte) ∉ s) : leafDim s = .ok none := by
  unfold leafDim
  rw [titleHasDims_plain h]
  rfl

theorem dimPattern_skip {s : Str} (h : (91 : Byte) ∉ s) (t : Str) : dimPattern (s ++ t) = dimPattern t := by
  induction s with
  | nil => rfl
  | cons b s ih =>
    rw [List.cons_append]
    have hb : b ≠ 91 := fun e => h (e ▸ List.mem_cons_self ..)
    have : dimPattern (b :: (s ++ t)) = dimPattern (s ++ t) := by
      conv => lhs; unfold dimPattern
      dsimp only
      rw [if_neg (fun hc => hb hc.1)]
    rw [this, ih fun hm => h (List.mem_cons_of_mem _ hm)]

theorem leafDim_array {s : Str} (h1 : (91 : Byte) ∉ s) (h2 : (93 : Byte) ∉ s) {n : Nat} (hn : 0 < n)
    (hlt : n < 2 ^ 31) : leafDim (s ++ b! "[" ++ decimal n ++ b! "]") = .ok (some (n : Int)) := by
  have hd := decimal_digits n
  have hne := decimal_ne_nil n
  have e : s ++ b! "[" ++ decimal n ++ b! "]" = s ++ 91 :: (decimal n ++ [93]) := by simp
  have ht : titleHasDims (s ++ 91 :: (decimal n ++ [93])) = true := by
    unfold titleHasDims
    rw [dropWhile_all (l := s)]
    · rw [List.dropWhile_cons, if_neg (by decide)]
      have ht : (decimal n ++ [93]).takeWhile (fun b => decide (b ≠ 91 ∧ b ≠ 93)) = decimal n := by
        rw [takeWhile_all]
        · simp
        · intro b hb
          simp [isDigit_plain (hd b hb)]
      show decide ((decimal n ++ [93]).takeWhile (fun b => decide (b ≠ 91 ∧ b ≠ 93)) ≠ [] ∧ _) = true
      rw [ht]
      simp [hne]
    · intro b hb
      have a1 : b ≠ 91 := fun e => h1 (e ▸ hb)
      have a2 : b ≠ 93 := fun e => h2 (e ▸ hb)
      simp [a1, a2]
  have hp : dimPattern (s ++ 91 :: (decimal n ++ [93])) = some (decimal n) := by
    rw [dimPattern_skip h1]
    unfold dimPattern
    dsimp only
    have ht : (decimal n ++ [93]).takeWhile isDigitByte = decimal n := by
      rw [takeWhile_all hd]
      simp [isDigitByte]
    rw [ht, if_pos ⟨rfl, hne, decimal_head hn, by simp⟩]
  rw [e]
  unfold leafDim
  rw [ht, hp]
  dsimp only
  rw [digitsVal_decimal]
  simp only [if_true]
  rw [if_pos hlt]

/-! ### Columns -/

/-- The records of class `c` are those of a vector. -/
def VectorRecords (c : Str) (sis : List StreamerInfo) : Prop :=
  ∀ si ∈ sis, si.named.name = c → ∀ s ∈ si.elems, ∃ e v k, s = .stl e v k ∧ e.ename = c

theorem VectorRecords.streamer {r : Reader} {be : BranchElem} {name : Str}
    (h : VectorRecords be.className r.sinfos) :
    be.streamer r name = none ∨ ∃ e v k, be.streamer r name = some (.stl e v k) ∧ e.ename = be.className := by
  unfold BranchElem.streamer
  cases hf : r.sinfos.reverse.find? (fun s => s.named.name = be.className) with
  | none => exact .inl rfl
  | some si =>
    dsimp only
    unfold StreamerInfo.get
    cases hs : si.elems.find? (fun s => s.name = cleanName name) with
    | none => exact .inl rfl
    | some s =>
      obtain ⟨e, v, k, h1, h2⟩ := h si (List.mem_reverse.1 (List.mem_of_find?_eq_some hf))
        (by simpa using List.find?_some hf) s (List.mem_of_find?_eq_some hs)
      exact .inr ⟨e, v, k, by rw [h1], h2⟩

/-- The class names of vectors. -/
theorem vectorClass {e : Ty} (h : e.stlContent ≠ none) : ∃ c, (Ty.vec e).wrClassName = .ok c ∧
    parseTypename c = .ok 6 ∧ cleanTypeName c ∈ (Ty.vec e).rdClassNames := by
  cases e <;> first | exact absurd rfl h | exact ⟨_, rfl, rfl, by decide +kernel⟩

theorem vector_header {e : Ty} (h : e.stlContent ≠ none) {r : Reader} {c : Str}
    (hc : (Ty.vec e).wrClassName = .ok c) (hr : VectorRecords c r.sinfos) (name : Str) :
    ∃ be, (Ty.vec e).elemOf = some be ∧ be.className = c ∧ be.stype = -1 ∧ be.header r name = .ok 6 := by
  refine ⟨{ className := c, stype := -1, id := -1 }, ?_, rfl, rfl, ?_⟩
  · unfold Ty.elemOf
    simp only [hc]
  · obtain ⟨c', h1, h2, -⟩ := vectorClass h
    rw [hc] at h1
    cases h1
    unfold BranchElem.header headerBytesFromType
    rcases VectorRecords.streamer (be := { className := c, stype := -1, id := -1 }) (name := name) hr with
      h | ⟨e, v, k, h, -⟩ <;> rw [h] <;> exact h2

/-- The type name of the leaf of a primitive type. -/
theorem prim_typeName {t : Ty} {k : LeafKind} {u : Bool} (h : t.leafKind = some (k, u)) {v : Int} {tl : TLeaf}
    (hu : tl.unsigned = u) {min max : Int} :
    ∃ s, (Leaf.var k v tl min max).typeName = some s ∧ t.rdClassNames = [s] := by
  cases t <;> cases h <;> refine ⟨_, rfl, ?_⟩ <;> simp [hu, Ty.rdClassNames]

theorem decimalI_nat (n : Nat) : decimalI (n : Int) = decimal n := by
  unfold decimalI
  rw [if_neg (by omega)]
  rfl

/-- The item type of the branch of a column is one of the names of the type. -/
theorem itemType_made {t : Ty} {name : Str} {l0 l : Leaf} (hl0 : Leaf.new t name = .ok l0)
    (hlike : LeafLike l0 l) {b : Branch} (hleaves : b.data.leaves = [l]) (helem : b.elem = t.elemOf)
    (hsub : b.branches = []) (h1 : (91 : Byte) ∉ name) (h2 : (93 : Byte) ∉ name)
    (harr : ∀ n e, t = .arr n e → n < 2 ^ 31) {r : Reader}
    (hvec : ∀ e, t = .vec e → e.stlContent ≠ none ∧ ∀ c, t.wrClassName = .ok c → VectorRecords c r.sinfos)
    (top : Bool) : ∃ n, b.itemTypeName r top = .ok n ∧ n ∈ t.rdClassNames ∧
      (t = .string → n = b! "char*") := by
  by_cases hv : ∃ e, t = .vec e
  · obtain ⟨e, rfl⟩ := hv
    obtain ⟨hs, hr⟩ := hvec e rfl
    obtain ⟨c, hc, -, hn⟩ := vectorClass hs
    obtain ⟨be, hbe, hcls, hst, -⟩ := vector_header hs hc (hr c hc) []
    have hl : l = .element rversLeafX { named := { name := name, title := name }, etype := 0, len := 1 } (-1) (-1) := by
      unfold Leaf.new at hl0
      obtain ⟨_, -, hl0⟩ := Res.ok_bind.1 hl0
      cases hl0
      cases hlike
      rfl
    refine ⟨cleanTypeName c, ?_, hn, fun h => by cases h⟩
    unfold Branch.itemTypeName
    rw [helem, hbe]
    dsimp only
    unfold BranchElem.itemTypeName
    rw [hsub, hleaves, if_neg (by simp), hl]
    dsimp only [Leaf.tleaf]
    rw [leafDim_plain h1, hst]
    simp only [bind, Except.bind, Leaf.typeName, leafTypeName]
    have := hr c hc
    rw [← hcls] at this
    rcases VectorRecords.streamer (be := be) (name := b.data.named.name) this with h | ⟨e, v, k, h, he⟩ <;>
      rw [h]
    · rw [hcls]; rfl
    · simp only [Streamer.element, he, hcls]; rfl
  · have hbe : b.elem = none := by
      rw [helem]
      cases t <;> first | rfl | exact absurd ⟨_, rfl⟩ hv
    unfold Branch.itemTypeName
    rw [hbe]
    dsimp only
    unfold BranchData.itemTypeName
    rw [hleaves]
    dsimp only
    by_cases ha : ∃ n e, t = .arr n e
    · obtain ⟨n, e, rfl⟩ := ha
      have hlt := harr n e rfl
      have has : asI 4 (n : Int) = n := asI_of (by decide) (inI4_of (by omega) (by omega))
      unfold Leaf.new at hl0
      dsimp only at hl0
      rw [has] at hl0
      split at hl0
      · cases hl0
      · next hn =>
        split at hl0
        · cases hl0
        · next k u hk =>
          cases hl0
          have hl : ∃ tl, l = .var k rversLeafX tl 0 0 ∧ tl.unsigned = u ∧
              tl.named.title = name ++ b! "[" ++ decimalI n ++ b! "]" := by
            cases hlike with
            | same => exact ⟨_, rfl, rfl, rfl⟩
            | string => exact absurd hk (by cases e <;> simp [Ty.leafKind])
          obtain ⟨tl, rfl, hu, htl⟩ := hl
          obtain ⟨s, hs, hcl⟩ := prim_typeName hk (v := rversLeafX) hu (min := 0) (max := 0)
          rw [show (Leaf.var k rversLeafX tl 0 0).tleaf = tl from rfl, htl, decimalI_nat,
            leafDim_array h1 h2 (by omega) hlt, hs]
          refine ⟨_, rfl, ?_, fun h => by cases h⟩
          unfold withDim
          dsimp only
          rw [if_pos (by omega), decimalI_nat]
          unfold Ty.rdClassNames
          rw [hcl]
          exact List.mem_singleton.2 rfl
    · by_cases hs' : t = .string
      · subst hs'
        cases hl0
        have hl : ∃ tl max, l = .var .C rversLeafX tl 0 max ∧ tl.named.title = name := by
          cases hlike with
          | same => exact ⟨_, _, rfl, rfl⟩
          | string => exact ⟨_, _, rfl, rfl⟩
        obtain ⟨tl, max, rfl, htl⟩ := hl
        rw [show (Leaf.var .C rversLeafX tl 0 max).tleaf = tl from rfl, htl, leafDim_plain h1]
        exact ⟨_, rfl, (show b! "char*" ∈ Ty.string.rdClassNames by decide), fun _ => rfl⟩
      · have hk : ∃ k u, t.leafKind = some (k, u) ∧ l0 = .var k rversLeafX
            { named := { name := name, title := name }, etype := asI 4 t.sizeOf, len := 1, unsigned := u } 0 0 := by
          cases t <;> first
            | exact absurd ⟨_, rfl⟩ hv
            | exact absurd ⟨_, _, rfl⟩ ha
            | exact absurd rfl hs'
            | (cases hl0; exact ⟨_, _, rfl, rfl⟩)
        obtain ⟨k, u, hk, rfl⟩ := hk
        have hl : ∃ tl, l = .var k rversLeafX tl 0 0 ∧ tl.unsigned = u ∧ tl.named.title = name := by
          cases hlike with
          | same => exact ⟨_, rfl, rfl, rfl⟩
          | string => exact absurd hk (by cases t <;> simp [Ty.leafKind])
        obtain ⟨tl, rfl, hu, htl⟩ := hl
        obtain ⟨s, hs, hcl⟩ := prim_typeName hk (v := rversLeafX) hu (min := 0) (max := 0)
        rw [show (Leaf.var k rversLeafX tl 0 0).tleaf = tl from rfl, htl, leafDim_plain h1, hs]
        exact ⟨_, rfl, by rw [hcl]; exact List.mem_singleton.2 rfl, fun h => absurd h hs'⟩

/-! ### No name belongs to two types -/

theorem decimal_injective {m n : Nat} (h : decimal m = decimal n) : m = n := by
  rw [← digitsVal_decimal m, h, digitsVal_decimal]

theorem decimal_noBracket (n : Nat) : (91 : Byte) ∉ decimal n := by
  intro h
  have := decimal_digits n 91 h
  revert this
  decide

theorem split_bracket : ∀ {a a' d d' : Str}, (91 : Byte) ∉ d → (91 : Byte) ∉ d' → a ++ 91 :: d = a' ++ 91 :: d' →
    a = a' ∧ d = d'
  | [], [], _, _, _, _, h => ⟨rfl, (List.cons.inj h).2⟩
  | [], x :: a', d, d', hd, _, h => by
    exfalso
    have := (List.cons.inj h).2
    rw [this] at hd
    simp at hd
  | x :: a, [], d, d', _, hd', h => by
    exfalso
    have := (List.cons.inj h).2
    rw [← this] at hd'
    simp at hd'
  | x :: a, x' :: a', d, d', hd, hd', h => by
    obtain ⟨h1, h2⟩ := List.cons.inj h
    obtain ⟨e1, e2⟩ := split_bracket hd hd' h2
    exact ⟨by rw [h1, e1], e2⟩

/-- The type of a name, for names of types that are not built from others. -/
def simpleOf (n : Str) : Ty :=
  if n = b! "bool" then .bool else if n = b! "int8_t" then .i8 else if n = b! "uint8_t" then .u8
  else if n = b! "int16_t" then .i16 else if n = b! "uint16_t" then .u16
  else if n = b! "int32_t" then .i32 else if n = b! "uint32_t" then .u32
  else if n = b! "int64_t" then .i64 else if n = b! "uint64_t" then .u64
  else if n = b! "float" then .f32 else if n = b! "double" then .f64 else .string

theorem simple_names {t : Ty} (h1 : ∀ e, t ≠ .vec e) (h2 : ∀ n e, t ≠ .arr n e) :
    ∀ s ∈ t.rdClassNames, simpleOf s = t ∧ s.getLast? ≠ some 62 ∧ s.getLast? ≠ some 93 := by
  cases t with
  | vec e => exact absurd rfl (h1 e)
  | arr n e => exact absurd rfl (h2 n e)
  | string =>
    intro s hs
    simp only [Ty.rdClassNames, List.mem_cons, List.not_mem_nil, or_false] at hs
    rcases hs with rfl | rfl | rfl <;> exact ⟨rfl, by decide, by decide⟩
  | _ =>
    intro s hs
    rw [List.mem_singleton.1 hs]
    exact ⟨rfl, by decide, by decide⟩

theorem vec_name {e : Ty} {s : Str} (h : s ∈ (Ty.vec e).rdClassNames) : s.getLast? = some 62 := by
  obtain ⟨c, -, rfl⟩ := List.mem_map.1 h
  exact List.getLast?_concat ..

theorem arr_name {n : Nat} {e : Ty} {s : Str} (h : s ∈ (Ty.arr n e).rdClassNames) : s.getLast? = some 93 := by
  obtain ⟨c, -, rfl⟩ := List.mem_map.1 h
  exact List.getLast?_concat ..

theorem rdClassNames_disjoint : ∀ {t t' : Ty} {s : Str}, s ∈ t.rdClassNames → s ∈ t'.rdClassNames → t = t' := by
  intro t
  induction t with
  | vec e ih =>
    intro t' s h h'
    have hl := vec_name h
    by_cases hv : ∃ e', t' = .vec e'
    · obtain ⟨e', rfl⟩ := hv
      obtain ⟨c, hc, rfl⟩ := List.mem_map.1 h
      obtain ⟨c', hc', he⟩ := List.mem_map.1 h'
      have := List.append_cancel_left (List.append_cancel_right he)
      rw [ih hc (this ▸ hc')]
    · by_cases ha : ∃ n e', t' = .arr n e'
      · obtain ⟨n, e', rfl⟩ := ha
        rw [arr_name h'] at hl
        cases hl
      · exact absurd hl (simple_names (fun e he => hv ⟨e, he⟩) (fun n e he => ha ⟨n, e, he⟩) s h').2.1
  | arr n e ih =>
    intro t' s h h'
    have hl := arr_name h
    by_cases hv : ∃ e', t' = .vec e'
    · obtain ⟨e', rfl⟩ := hv
      rw [vec_name h'] at hl
      cases hl
    · by_cases ha : ∃ n e', t' = .arr n e'
      · obtain ⟨n', e', rfl⟩ := ha
        obtain ⟨c, hc, rfl⟩ := List.mem_map.1 h
        obtain ⟨c', hc', he⟩ := List.mem_map.1 h'
        have := List.append_cancel_right he
        rw [List.append_assoc, List.append_assoc] at this
        obtain ⟨e1, e2⟩ := split_bracket (decimal_noBracket n') (decimal_noBracket n) this
        rw [ih hc (e1 ▸ hc'), decimal_injective e2]
      · exact absurd hl (simple_names (fun e he => hv ⟨e, he⟩) (fun n e he => ha ⟨n, e, he⟩) s h').2.2
  | _ =>
    intro t' s h h'
    obtain ⟨h1, h2, h3⟩ := simple_names (fun e he => by cases he) (fun n e he => by cases he) s h
    by_cases hv : ∃ e', t' = .vec e'
    · obtain ⟨e', rfl⟩ := hv
      exact absurd (vec_name h') h2
    · by_cases ha : ∃ n e', t' = .arr n e'
      · obtain ⟨n', e', rfl⟩ := ha
        exact absurd (arr_name h') h3
      · rw [← h1]
        exact (simple_names (fun e he => hv ⟨e, he⟩) (fun n e he => ha ⟨n, e, he⟩) s h').1

end Verif
