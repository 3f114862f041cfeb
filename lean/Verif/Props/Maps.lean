import Verif.Props.Containers
import Verif.Props.CppNames
/-
C75: columns of maps are read as maps, and as nothing else.
-/
namespace Verif

attribute [local irreducible] cleanTypeName

theorem map_name_not (c : Str) (t : Ty) : b! "map<" ++ c ++ b! ">" ∉ t.rdClassNames := by
  intro h
  have hl : (b! "map<" ++ c ++ b! ">").getLast? = some 62 := List.getLast?_concat ..
  by_cases hv : ∃ e, t = .vec e
  · obtain ⟨e, rfl⟩ := hv
    obtain ⟨x, -, hx⟩ := List.mem_map.1 h
    have := congrArg List.head? hx
    exact absurd this (by simp)
  · by_cases ha : ∃ n e, t = .arr n e
    · obtain ⟨n, e, rfl⟩ := ha
      rw [arr_name h] at hl
      cases hl
    · exact (simple_names (fun e he => hv ⟨e, he⟩) (fun n e he => ha ⟨n, e, he⟩) _ h).2.1 hl

theorem asIter_unnamed {α} (r : Reader) (top : Bool) (func : Rd α) (b : Branch) :
    b.asIter r top none func = b.getBasket r func := rfl

/-- C75, refused: a column of maps, however its keys and values are called, is refused as numbers, strings,
vectors and arrays, as sets, and as arrays of varying size.  Missing: other columns and other maps, `C75_false`. -/
theorem C75_refused_partial {r : Reader} {b : Branch} {body : Str} {n : Nat} (hb : NamedColumn r b (spelledMap body n))
    (top : Bool) {α : Type} (func : Rd α) (t : Ty) :
    b.asIter r top (some t.rdClassNames) func = .error (.err .typeMismatch) ∧
    b.asIter r top (some (setClassNames t)) func = .error (.err .typeMismatch) ∧
    b.asIter r top (some (sliceClassNames t)) func = .error (.err .typeMismatch) := by
  have hn := hb.itemType top
  have e : spelledMap body n = b! "map" ++ b! "<" ++ body ++ b! ">" ++ List.replicate n 32 := rfl
  rw [e, clean_container _ _ _ (by decide +kernel)] at hn
  have e2 : b! "map" ++ b! "<" = b! "map<" := rfl
  rw [e2] at hn
  refine ⟨?_, ?_, ?_⟩
  · rw [asIter_named hn, if_neg (map_name_not _ _)]
  · rw [asIter_named hn, if_neg]
    intro hm
    unfold setClassNames at hm
    split at hm
    · cases hm
    · have := congrArg List.head? (List.mem_singleton.1 hm)
      exact absurd this (by simp)
  · rw [asIter_named hn, if_neg]
    intro hm
    obtain ⟨x, -, hx⟩ := List.mem_map.1 hm
    have := congrArg List.getLast? hx
    rw [List.getLast?_concat] at this
    exact absurd this (by simp)

example {α : Type} (func : Rd α) :
    (demoNamed (b! "map<string,vector<int> >")).asIter emptyReader true (some (Ty.vec .i32).rdClassNames) func =
      .error (.err .typeMismatch) :=
  (C75_refused_partial (body := b! "string,vector<int> ") (n := 0) (demoNamed_named _) true func _).1

theorem map_header {r : Reader} {e : BranchElem} {name body : Str} {n : Nat} (hst : e.stype = -1)
    (hs : e.streamer r name = none) (hc : e.className = spelledMap body n) : e.header r name = .ok ((12 : Nat) : Int) := by
  unfold BranchElem.header
  rw [hst, hs, hc]
  unfold spelledMap
  rw [List.append_assoc, List.append_assoc]
  exact (C51_headers _).2

/-- C75, read: a column of maps that is not a member of another class is read as maps, and gives for each entry the
map that ROOT stored.  Missing: `C75_false`. -/
theorem C75_read_partial {k v : Ty} [DecidableEq k.Val] (hkt : k.isMember = true) (hvt : v.isMember = true)
    (r : Reader) (b : Branch) (e : BranchElem) {body : Str} {n : Nat} (hb : b.branches = []) (he : b.elem = some e)
    (hst : e.stype = -1) (hs : e.streamer r b.data.named.name = none) (hc : e.className = spelledMap body n)
    (groups : List (List (List Byte × MapLayout k v)))
    (hk : Keeps r b.data Slot.isObject (groups.map fun g => g.map fun p => p.1 ++ p.2.bytes))
    (hok : ∀ g ∈ groups, ∀ p ∈ g, IsHeader p.1 ∧ p.1.length = 12 ∧ p.2.Ok) (top : Bool) :
    ∃ maps, b.asIter r top none (Rd.map k.unmarshal v.unmarshal) = .ok maps ∧
      Alike MapOf maps (groups.flatten.map fun p => p.2.pairs) := by
  rw [asIter_unnamed]
  exact C51_map hkt hvt r b e hb he 12 (map_header hst hs hc) groups hk hok

example : demoMapBranch.branches = [] ∧ demoMapBranch.elem = some { className := b! "map<string,int>", stype := -1 } ∧
    BranchElem.streamer (demoBasketReader demoMapBytes) { className := b! "map<string,int>", stype := -1 } (b! "x") = none ∧
    b! "map<string,int>" = spelledMap (b! "string,int") 0 ∧
    Keeps (demoBasketReader demoMapBytes) demoMapBranch.data Slot.isObject
      ([[demoMap]].map fun g => g.map fun p => p.1 ++ p.2.bytes) ∧
    IsHeader demoMap.1 ∧ demoMap.1.length = 12 ∧ demoMap.2.Ok := by
  refine ⟨rfl, rfl, rfl, rfl, demoBasket_keeps (by decide +kernel) ⟨_, _, _, _, rfl⟩, ⟨by decide, rfl⟩, rfl, ?_⟩
  exact ⟨by decide, by decide, fun _ => ⟨rfl, rfl⟩, fun _ => rfl⟩

/-- Three numbers, all of them zero. -/
def demoZeros : List (List Byte) := [[0, 0, 0, 0], [0, 0, 0, 0], [0, 0, 0, 0]]

/-- A column of them. -/
def demoZeroBranch : Branch :=
  .mk (demoBasketBranch demoZeros (.var .I 1 { named := { name := b! "x", title := b! "x" }, len := 1, etype := 4 } 0 0)) none []

/-- One map of `int` to `int`, that has 7 for 5. -/
def demoIntMap : List (List Byte) := [[64, 0, 0, 18, 0, 9, 0, 0, 0, 0, 0, 0, 0, 0, 0, 1, 0, 0, 0, 5, 0, 0, 0, 7]]

/-- A column of it. -/
def demoIntMapBranch : Branch :=
  .mk (demoBasketBranch demoIntMap (.element 1 {} 0 (-1))) (some { className := b! "map<int,int>", stype := -1 }) []

theorem ok_of_some {α : Type} {x : Res α} {y : α} (e : x.toOption = some y) : x = .ok y := by
  cases x with
  | error e' => cases e
  | ok z => exact congrArg Except.ok (Option.some.inj e)

/-- C75 fails the other way: a column of numbers is taken for one of maps from strings to `f64`; and a column of
maps from `int` to `int` is read as one of maps from `i16` to `i16`, with other keys and values. -/
theorem C75_false :
    (demoZeroBranch.itemTypeName (demoBasketReader demoZeros) true = .ok (b! "int32_t") ∧
      demoZeroBranch.asIter (demoBasketReader demoZeros) true (some Ty.i32.rdClassNames) Ty.i32.unmarshal =
        .ok [(0 : Int), (0 : Int), (0 : Int)] ∧
      demoZeroBranch.asIter (demoBasketReader demoZeros) true none (Rd.map (κ := Str) Ty.string.unmarshal Ty.f64.unmarshal) =
        .ok [[], [], []]) ∧
    demoIntMapBranch.asIter (demoBasketReader demoIntMap) true none (Rd.map Ty.i32.unmarshal Ty.i32.unmarshal) =
      .ok [[((5 : Int), (7 : Int))]] ∧
    demoIntMapBranch.asIter (demoBasketReader demoIntMap) true none (Rd.map Ty.i16.unmarshal Ty.i16.unmarshal) =
      .ok [[((0 : Int), (5 : Int))]] := by
  refine ⟨⟨rfl, ?_, ?_⟩, ?_, ?_⟩
  · have h : Except.toOption ((demoZeroBranch.asIter (demoBasketReader demoZeros) true (some Ty.i32.rdClassNames)
        Ty.i32.unmarshal : Res (List Int))) = some [0, 0, 0] := by decide +kernel
    exact ok_of_some h
  · have h : Except.toOption (demoZeroBranch.asIter (demoBasketReader demoZeros) true none
        (Rd.map (κ := Str) (ν := Nat) Ty.string.unmarshal Ty.f64.unmarshal)) = some [[], [], []] := by decide +kernel
    exact ok_of_some h
  · have h : Except.toOption ((demoIntMapBranch.asIter (demoBasketReader demoIntMap) true none
        (Rd.map (κ := Int) Ty.i32.unmarshal Ty.i32.unmarshal) : Res (List (List (Int × Int))))) = some [[(5, 7)]] := by
      decide +kernel
    exact ok_of_some h
  · have h : Except.toOption ((demoIntMapBranch.asIter (demoBasketReader demoIntMap) true none
        (Rd.map (κ := Int) Ty.i16.unmarshal Ty.i16.unmarshal) : Res (List (List (Int × Int))))) = some [[(0, 5)]] := by
      decide +kernel
    exact ok_of_some h

end Verif
