import Verif.Lemmas.Big
import Verif.Lemmas.BasketRoom
/-
Creating a file, storing an object or a basket, and closing succeed when there is room below 2 GB.
-/
namespace Verif

theorem kl_le_small (n t c : Str) : kl n t c ≤ n.length + t.length + c.length + 80 := by
  have h1 := tstringSizeof_le n
  have h2 := tstringSizeof_le t
  have h3 := tstringSizeof_le c
  unfold kl keyLenFor
  split <;> (try simp only [Bool.or_self, Bool.false_eq_true, if_false]) <;> omega

/-- What is placed behind the end of a small file leaves it small. -/
theorem FileW.Below2GB.grow {f f' : FileW} (h : f.Below2GB) {ws : List DiskWrite}
    (ht : f'.trace = f.trace ++ ws) (hp : Placed f.header.end_ ws f'.header.end_)
    (he : f'.header.end_ ≤ 2000000000) : f'.Below2GB := by
  refine ⟨he, fun w hw => ?_⟩
  rw [ht] at hw
  rcases List.mem_append.1 hw with hw | hw
  · exact h.data w hw
  · have := hp.mem hw
    omega

theorem create_runs {path : Str} (ids : Nat) (h : path.length ≤ 100000) :
    createFile (FileW.initial path ids) = (.ok (), createdFile path ids) ∧
      (createdFile path ids).Below2GB := by
  have hs := tstringSizeof_le path
  have hs0 := tstringSizeof_pos path
  have hk : dirKeyLen path ≤ path.length + 85 := by
    have := kl_le_small path [] (b! "TFile")
    have e : (b! "TFile").length = 5 := rfl
    have e2 : ([] : Str).length = 0 := rfl
    rw [e, e2] at this
    have e3 : kl path [] (b! "TFile") = dirKeyLen path := rfl
    omega
  have hk0 : 26 ≤ dirKeyLen path := (keyLenFor_ge path [] (b! "TFile") false false).1
  have hn : dirNameLen path = tstringSizeof path + 1 := rfl
  have hlim : dirPos path + 60 ≤ kStartBigFile := by
    unfold dirPos kStartBigFile; omega
  have h1 : createFile (FileW.initial path ids) = (.ok (), createdFile path ids) := by
    unfold createFile
    rw [Fs.bind_of_ok (Fs.ok_get.2 ⟨rfl, rfl⟩)]
    have e1 : tstringSizeof (FileW.initial path ids).dir.name + tstringSizeof (FileW.initial path ids).dir.title =
      dirNameLen path := rfl
    have e2 : dirRecordSize (FileW.initial path ids).header.version = 60 := rfl
    rw [e1, e2, Fs.bind_of_ok (Fs.i32_of (inI4_abs (by omega) (by omega))),
      Fs.bind_of_ok (Fs.i32_of (inI4_abs (by omega) (by omega)))]
    have hkl : (FileW.initial path ids).keyLenFor (FileW.initial path ids).dir.name
      (FileW.initial path ids).dir.title (b! "TFile") = dirKeyLen path := rfl
    have hnew := Key.new_eq (f := FileW.initial path ids) (n := (FileW.initial path ids).dir.name)
      (t := (FileW.initial path ids).dir.title) (c := b! "TFile") (len := dirNameLen path + 60)
      (rfl : _ = _) (by omega) (by rw [hkl]; omega)
    rw [hkl] at hnew
    have he : (FileW.initial path ids).header.end_ + (dirNameLen path + 60 + dirKeyLen path) = dirPos path + 60 := by
      show (100 : Int) + _ = _
      unfold dirPos; omega
    rw [he] at hnew
    have hbig : ((FileW.initial path ids).ended (dirPos path + 60)).isBig = false := by
      show decide (kStartBigFile < dirPos path + 60) = false
      exact decide_eq_false (by omega)
    rw [hbig] at hnew
    rw [Fs.bind_of_ok hnew]
    have hik : (Key.at (FileW.initial path ids).dir.name (FileW.initial path ids).dir.title (b! "TFile") 1
      (dirNameLen path + 60) (dirKeyLen path) (FileW.initial path ids).header.end_
      (FileW.initial path ids).dir.seekDir false []).keyLen = dirKeyLen path := rfl
    rw [hik, Fs.bind_of_ok (Fs.i32_of (inI4_abs (by omega) (by omega))),
      Fs.bind_of_ok (Fs.ok_modify.2 rfl : Fs.modify _ _ = (.ok (), _))]
    obtain ⟨r1, r2⟩ := createdHeader_inRange hlim
    refine (Fs.bind_of_ok (writeHeader_eq (f := { header := { createdHeader path with nFree := 0 }
                                                  spans := [⟨dirPos path + 60, kStartBigFile⟩]
                                                  dir := createdDir path, id := path, ids := ids
                                                  trace := [] }) rfl rfl r1 r2)).trans ?_
    rw [Fs.bind_of_ok (Fs.ok_get.2 ⟨rfl, rfl⟩)]
    dsimp only
    have et : (createdDir path).title = [] := rfl
    rw [et]
    refine (Fs.bind_of_ok (Fs.marshal_writes (Writes.strTitleDir (name := path) (title := []) (d := createdDir path)
      (by omega) (by decide) rfl rfl) _)).trans ?_
    have hw : (dirKey path).Writable :=
      Key.at_writable (a := false) (b := false) (by
        show 0 ≤ dirKeyLen path + (dirNameLen path + 60); omega) (by decide) (by decide)
        (inI4_abs (show _ ≤ dirKeyLen path by omega) (show dirKeyLen path ≤ _ by omega))
    exact Key.writeToFile_eq hw _
  refine ⟨h1, hlim, ?_⟩
  have hp := dirKey_placed path
  intro w hw
  have hw : w ∈ createdTrace path := hw
  unfold createdTrace at hw
  rcases List.mem_append.1 hw with hw | hw
  · have h100 : (createdHeader path).enc.length ≤ 100 := by
      rw [FileHeader.enc_length (createdHeader_inRange hlim).1, (createdHeader_inRange hlim).2]
      decide
    rcases List.mem_cons.1 hw with rfl | hw
    · simp only [List.length_replicate]; omega
    · rw [List.mem_singleton] at hw
      subst hw
      show 0 + (createdHeader path).enc.length ≤ 2000000000
      omega
  · have := hp.mem hw
    have hl := hlim
    unfold kStartBigFile at hl
    omega

/-! ### Storing a basket -/

theorem flatMap_encI_length {α} (l : List α) (g : α → Int) : (l.flatMap fun a => encI 4 (g a)).length = 4 * l.length := by
  induction l with
  | nil => rfl
  | cons a l ih =>
    have : (encI 4 (g a)).length = 4 := by simp [encI]
    rw [List.flatMap_cons, List.length_append, ih, this, List.length_cons]
    omega

theorem basketPayload_length_le (tab : Bool) (k : Int) {es : List (List Byte)} (h : ∀ e ∈ es, e ≠ []) :
    (basketPayload tab k es).length ≤ (if tab then 5 * es.flatten.length else es.flatten.length) + 8 := by
  have hl := length_le_flatten h
  unfold basketPayload
  cases tab with
  | false => simp
  | true =>
    have h4 : ∀ a, (encI 4 a).length = 4 := fun a => by simp [encI]
    simp only [if_true, List.length_append, h4, flatMap_encI_length, starts_length]
    omega

/-- Storing a basket keeps the file below 2 GB if there is room. -/
theorem Current.stores_below {path name tn : Str} {tab : Bool} {i : Int} {cur : List (List Byte)} {f f' : FileW}
    {bk : WBasket} {r : WBasket × Int × Int} (hi : Inv path f) (hb : f.Below2GB) (hc : Current name tn tab i cur bk)
    (hroom : f.header.end_ + (bkl name tn + ((if tab then 5 * cur.flatten.length else cur.flatten.length) + 8 : Nat)) ≤ 2000000000)
    (h : bk.writeToFile f = (.ok r, f')) : f'.Below2GB := by
  obtain ⟨bk', n, m⟩ := r
  obtain ⟨w, hw, -, -, -, hbb, -, -, hf⟩ := WBasket.writeToFile_ok hi.good h
  have hk : bk'.basket.key = basketKey f bk.basket w.p := by rw [hbb]
  have hl := basketPayload_length_le tab (bkl name tn) hc.full
  rw [← hc.payload hw] at hl
  have hlo := hi.lo
  have hd := dirPos_ge path
  have h26 : 26 ≤ bkl name tn := (keyLenFor_ge name tn (b! "TBasket") false false).1
  have hlen : (w.p.length : Int) ≤ kStartBigFile := by simp only [kStartBigFile]; omega
  have hkey : bk'.basket.key = Key.at name tn (b! "TBasket")
      bk.basket.key.cycle w.p.length (bkl name tn) f.header.end_ 100 false w.p := by
    rw [hk]
    unfold basketKey
    rw [hi.keyLenFor, hi.seekDir, hi.good.notBig, asI4_nat hlen, hc.kname, hc.title]
  have hp : Placed f.header.end_ ((Key.at name tn (b! "TBasket")
      bk.basket.key.cycle w.p.length (bkl name tn)
      f.header.end_ 100 false w.p).twoWrites ((Key.at name tn (b! "TBasket")
      bk.basket.key.cycle w.p.length (bkl name tn)
      f.header.end_ 100 false w.p).enc packedNow ++ bk'.basket.tail))
      (f.header.end_ + (bkl name tn + w.p.length)) := by
    refine Key.placed hi.good.lo ?_
    rw [List.length_append, Basket.tail_length, Int.natCast_add, Key.at_enc_length]
    unfold extra
    rw [if_pos rfl]
    omega
  have he : f'.header.end_ = f.header.end_ + (bkl name tn + w.p.length) := by
    rw [hf]; unfold afterBasket; rw [hkey]; rfl
  refine hb.grow (ws := (Key.at name tn (b! "TBasket")
      bk.basket.key.cycle w.p.length (bkl name tn)
      f.header.end_ 100 false w.p).twoWrites ((Key.at name tn (b! "TBasket")
      bk.basket.key.cycle w.p.length (bkl name tn)
      f.header.end_ 100 false w.p).enc packedNow ++ bk'.basket.tail)) ?_ ?_ ?_
  · rw [hf]
    unfold afterBasket
    rw [hkey]
  · rw [he]; exact hp
  · rw [he]
    generalize bkl name tn = K at *
    omega

/-! ### Storing an object -/

theorem Fs.dictionary_of {env : Env} {n : Str} {v : Int} {f : FileW} {si : StreamerInfo} {m : Nat}
    (h : env.lookup n v f.ids = .ok (si, m)) : Fs.dictionary env n v f = (.ok si, { f with ids := m }) := by
  unfold Fs.dictionary
  rw [Fs.bind_of_ok (show Fs.get f = (.ok f, f) from rfl), h]
  rfl

theorem put_runs {env : Env} {path name : Str} {obj : PutObj} {f f1 : FileW} {c : Int} {m : Nat} {w : WBuffer}
    (hi : Inv path f) (hb : f.Below2GB) (hs : (47 : Byte) ∉ name)
    (hc : lastCycle (putName name obj) obj.cls f.dir.keys 0 = some c) (ha : Announced env obj f f1)
    (hm : obj.marshal (WBuffer.new (kl (putName name obj) obj.title obj.cls).toNat) = .ok (m, w))
    (hroom : f.header.end_ + (kl (putName name obj) obj.title obj.cls + w.p.length) ≤ 2000000000) :
    ∃ f', put env name obj f = (.ok (), f') ∧ f'.Below2GB ∧
      f'.header.end_ = f.header.end_ + (kl (putName name obj) obj.title obj.cls + w.p.length) := by
  have hs1 := ha.same
  have hi1 := hi.sameBut hs1
  have hd : f1.dir = f.dir := by rw [hs1]
  have hh : f1.header = f.header := by rw [hs1]
  have htr : f1.trace = f.trace := by rw [hs1]
  have hlo := hi.lo
  have hdp := dirPos_ge path
  have h26 := (keyLenFor_ge (putName name obj) obj.title obj.cls false false).1
  have hlen : (w.p.length : Int) ≤ kStartBigFile := by
    simp only [kStartBigFile]
    unfold kl at *
    omega
  have hgl := hi.good.lo
  have hgh := hi.good.hi
  unfold kStartBigFile at hgh hlen
  have hwr : (Key.at (putName name obj) obj.title obj.cls (asI 2 (c + 1)) w.p.length
      (kl (putName name obj) obj.title obj.cls) f.header.end_ 100 false w.p).Writable :=
    Key.at_writable (show 0 ≤ kl (putName name obj) obj.title obj.cls + w.p.length by unfold kl; omega) hgl
      (by unfold kStartBigFile; omega)
      (inI4_abs (show _ ≤ kl (putName name obj) obj.title obj.cls by unfold kl; omega)
        (show kl (putName name obj) obj.title obj.cls ≤ _ by unfold kl at *; omega))
  have hnew : Key.newFromObject (putName name obj) obj.title obj.cls obj.marshal f1 =
      (.ok (Key.at (putName name obj) obj.title obj.cls 1 w.p.length
        (kl (putName name obj) obj.title obj.cls) f.header.end_ 100 false w.p),
        f1.ended (f.header.end_ + (kl (putName name obj) obj.title obj.cls + w.p.length))) := by
    unfold Key.newFromObject
    rw [Fs.bind_of_ok (show Fs.get f1 = (.ok f1, f1) from rfl), hi1.keyLenFor,
      Fs.bind_of_ok (Fs.i32_of (inI4_abs (by unfold kl at *; omega) (by unfold kl at *; omega))),
      Fs.bind_of_ok (Fs.ok_marshal.2 ⟨⟨_, _, hm, rfl⟩, rfl⟩), asI4_nat (show (w.p.length : Int) ≤ kStartBigFile from hlen),
      Fs.bind_of_ok (Fs.i32_of (inI4_abs (by unfold kl at *; omega) (by unfold kl at *; omega))),
      hi1.good.comp, compressPayload_eq,
      Fs.bind_of_ok (show Fs.lift (Except.ok w.p) f1 = (.ok w.p, f1) from rfl),
      asI4_nat (show (w.p.length : Int) ≤ kStartBigFile from hlen),
      Fs.bind_of_ok (Fs.i32_of (inI4_abs (by unfold kl at *; omega) (by unfold kl at *; omega))),
      Fs.bind_of_ok (Fs.setEnd_eq hi1.good.span _), hi1.good.notBig, hi1.seekDir, hh]
    rfl
  have hrun : put env name obj f = (.ok (), afterPut f1 (Key.at (putName name obj) obj.title obj.cls
      (asI 2 (c + 1)) w.p.length (kl (putName name obj) obj.title obj.cls) f.header.end_ 100 false w.p)) := by
    unfold put
    simp only [hs, if_false]
    rw [Fs.bind_of_ok (show Fs.get f = (.ok f, f) from rfl)]
    simp only [show (if name = [] then obj.name else name) = putName name obj from rfl, hc]
    have hk : (do
        let key ← Key.newFromObject (putName name obj) obj.title obj.cls obj.marshal
        Key.writeToFile { key with cycle := asI 2 (c + 1) }
        Fs.modify fun f => { f with dir := { f.dir with
          keys := f.dir.keys ++ [{ key with cycle := asI 2 (c + 1) }] } } : Fs Unit) f1 =
        (.ok (), afterPut f1 (Key.at (putName name obj) obj.title obj.cls
          (asI 2 (c + 1)) w.p.length (kl (putName name obj) obj.title obj.cls) f.header.end_ 100 false w.p)) := by
      rw [Fs.bind_of_ok hnew]
      refine (Fs.bind_of_ok (Key.writeToFile_eq hwr _)).trans ?_
      refine (Fs.ok_modify.2 ?_ : Fs.modify _ _ = (.ok (), _))
      unfold afterPut
      rw [hh]
      rfl
    cases ha with
    | core hcore =>
      simp only [hcore, not_true_eq_false, if_false]
      exact hk
    | found hcore hl =>
      simp only [hcore, not_false_eq_true, if_true]
      rw [Fs.bind_of_ok (Fs.dictionary_of hl), Fs.bind_of_ok (addStreamerInfo_eq _ _)]
      exact hk
  refine ⟨_, hrun, ?_, ?_⟩
  · refine hb.grow (ws := (Key.at (putName name obj) obj.title obj.cls
      (asI 2 (c + 1)) w.p.length (kl (putName name obj) obj.title obj.cls) f.header.end_ 100 false w.p).twoWrites
        ((Key.at (putName name obj) obj.title obj.cls
      (asI 2 (c + 1)) w.p.length (kl (putName name obj) obj.title obj.cls) f.header.end_ 100 false w.p).enc packedNow))
      ?_ ?_ ?_
    · unfold afterPut
      rw [htr]
    · have := Key.placed_enc (n := putName name obj) (t := obj.title) (c := obj.cls)
        (cy := asI 2 (c + 1)) (len := w.p.length) (pdir := 100) (buf := w.p) hgl
      unfold afterPut
      simp only [FileW.ended, hh]
      exact this
    · unfold afterPut
      simp only [FileW.ended, hh]
      exact hroom
  · unfold afterPut
    simp only [FileW.ended, hh]
    rfl

/-! ### Closing -/

theorem saveKeys_small {path : Str} {f : FileW} (hi : Inv path f)
    (hroom : f.header.end_ + (kl path [] (b! "TDirectory") + keysLen f.dir) ≤ 2000000000) :
    ∃ d' f', saveKeys f.dir f = (.ok d', f') ∧ f'.header.end_ ≤ kStartBigFile := by
  have hn : f.dir.name = path := by rw [hi.dir]; rfl
  have ht : f.dir.title = [] := by rw [hi.dir]; rfl
  have hk := hi.closable.keys
  have hnn : ∀ x ∈ f.dir.keys.map Key.keyLen, 0 ≤ x := by
    intro x hx
    obtain ⟨k, hk', rfl⟩ := List.mem_map.1 hx
    exact (hk k hk').keyLen
  have h0 := sum_nonneg hnn
  have h26 : 26 ≤ kl path [] (b! "TDirectory") := (keyLenFor_ge _ _ _ false false).1
  have hlo := hi.lo
  have hdp := dirPos_ge path
  have hkl : f.keyLenFor f.dir.name f.dir.title (b! "TDirectory") = kl path [] (b! "TDirectory") := by
    rw [hi.keyLenFor, hn, ht]
  unfold saveKeys
  rw [Fs.bind_of_ok (Fs.ok_get.2 ⟨rfl, rfl⟩), hi.good.notBig]
  simp only [Bool.false_eq_true, if_false]
  have hK : 4 + (f.dir.keys.map Key.keyLen).sum = keysLen f.dir := rfl
  have h1 := Fs.sum_eq (acc := 4) f hnn (by decide) (by omega)
  rw [hK] at h1
  rw [Fs.bind_of_ok h1, Fs.bind_of_ok (Key.new_eq hi.good.span (by omega) (by rw [hkl]; omega)),
    Fs.bind_of_ok (Fs.marshal_writes (keys_writes hk) _)]
  have hwr := Key.at_writable (n := f.dir.name) (t := f.dir.title) (c := b! "TDirectory") (cy := 1) (len := keysLen f.dir)
    (seek := f.header.end_) (a := f.dir.isBig) (b := f.isBig)
    (big := (f.ended (f.header.end_ + (keysLen f.dir + f.keyLenFor f.dir.name f.dir.title (b! "TDirectory")))).isBig)
    (pdir := f.dir.seekDir) (buf := keysBytes f.dir)
    (by show 0 ≤ f.keyLenFor f.dir.name f.dir.title (b! "TDirectory") + _; rw [hkl]; omega) (by omega)
    (by unfold kStartBigFile; omega)
    (by show InI 4 (f.keyLenFor f.dir.name f.dir.title (b! "TDirectory"))
        rw [hkl]; exact inI4_abs (by omega) (by omega))
  refine ⟨_, _, Fs.bind_of_ok (Key.writeToFile_eq hwr _), ?_⟩
  show f.header.end_ + (keysLen f.dir + f.keyLenFor f.dir.name f.dir.title (b! "TDirectory")) ≤ 2000000000
  rw [hkl]
  omega

theorem writeStreamerInfo_small {env : Env} {f : FileW} {s : List StreamerInfo} {i n : Nat} {w : WBuffer}
    (hf : f.Good) (hz : f.header.seekInfo = 0)
    (hdeps : findDeepStreamer env f = (.ok (), { f with sinfos := s, ids := i }))
    (hm : TList.marshal TObject.default none (placedInfos env 0 s) (WBuffer.new infoKeyLen.toNat) = .ok (n, w))
    (hroom : f.header.end_ + (infoKeyLen + w.p.length) ≤ 2000000000) :
    ∃ f', writeStreamerInfo env f = (.ok (), f') := by
  have hkl : ∀ n t c, f.keyLenFor n t c = keyLenFor n t c false false :=
    fun n t c => keyLenFor_notBig hf.dirBig hf.notBig n t c
  have hik : infoKeyLen = 64 := by decide
  have hlo := hf.lo
  unfold writeStreamerInfo
  rw [Fs.bind_of_ok hdeps, Fs.bind_of_ok (Fs.ok_get.2 ⟨rfl, rfl⟩)]
  dsimp only
  rw [if_neg (by omega)]
  generalize hg : ({ f with sinfos := s, ids := i } : FileW) = g
  have gh : g.header = f.header := by rw [← hg]
  have gs : g.sinfos = s := by rw [← hg]
  have gk : ∀ n t c, g.keyLenFor n t c = keyLenFor n t c false false := fun n t c => by
    rw [← hg]; exact hkl n t c
  have gb : g.isBig = false := by rw [← hg]; exact hf.notBig
  have gp : g.OneSpan := by rw [← hg]; exact hf.span
  have gc : g.header.compression = 1 := by rw [gh]; exact hf.comp
  have h1 : Key.new infoName listTitle (b! "TList") 0 g = (.ok (Key.at infoName listTitle (b! "TList") 1 0
      infoKeyLen 100 g.dir.seekDir false []), g) := by
    unfold Key.new
    rw [Fs.bind_of_ok (Fs.ok_get.2 ⟨rfl, rfl⟩), gk, Fs.bind_of_ok (Fs.i32_eq (by decide) g),
      Fs.bind_of_ok (Fs.i32_eq (by decide) g)]
    simp only [Int.lt_irrefl, if_false]
    rw [Fs.bind_of_ok (Fs.ok_get.2 ⟨rfl, rfl⟩), gb]
    rfl
  rw [Fs.bind_of_ok h1]
  have h2 : Fs.marshal (Key.at infoName listTitle (b! "TList") 1 0 infoKeyLen 100 g.dir.seekDir false []).keyLen
    (TList.marshal TObject.default none (placedInfos env 0 s)) g = (.ok w.p, g) :=
    Fs.ok_marshal.2 ⟨⟨n, w, hm, rfl⟩, rfl⟩
  rw [Fs.bind_of_ok h2]
  have hlen : (w.p.length : Int) ≤ kStartBigFile := by unfold kStartBigFile; omega
  have h3 : Key.newFromBuffer infoName listTitle (b! "TList") 1 w.p g =
      (.ok (Key.at infoName listTitle (b! "TList") 1 w.p.length
        infoKeyLen g.header.end_ g.dir.seekDir false w.p),
        g.ended (g.header.end_ + (infoKeyLen + w.p.length))) := by
    unfold Key.newFromBuffer
    rw [Fs.bind_of_ok (Fs.ok_get.2 ⟨rfl, rfl⟩), gk, Fs.bind_of_ok (Fs.i32_eq (by decide) g), asI4_nat hlen,
      Fs.bind_of_ok (Fs.i32_of (inI4_abs (show _ ≤ infoKeyLen + _ by omega) (show infoKeyLen + _ ≤ _ by omega))),
      gc, compressPayload_eq, Fs.bind_of_ok (Fs.ok_lift.2 ⟨rfl, rfl⟩), asI4_nat hlen,
      Fs.bind_of_ok (Fs.i32_of (inI4_abs (show _ ≤ infoKeyLen + _ by omega) (show infoKeyLen + _ ≤ _ by omega))),
      Fs.bind_of_ok (Fs.setEnd_eq gp _), gb]
    rfl
  rw [Fs.bind_of_ok h3, Fs.bind_of_ok (Fs.ok_modify.2 rfl : Fs.modify _ _ = (.ok (), _)),
    Key.writeToFile_eq (Key.at_writable (a := false) (b := false) (show 0 ≤ infoKeyLen + _ by omega)
      (by rw [gh]; exact hf.lo) (by rw [gh]; exact hf.hi) (by decide))]
  exact ⟨_, rfl⟩

theorem writeFreeSegments_small {f : FileW} (hf : f.Good) (hz : f.header.seekFree = 0) (hpos : 0 < f.header.end_)
    (hroom : f.header.end_ + (keyLenFor f.dir.name f.dir.title (b! "TFile") false false + 10) ≤ 2000000000) :
    ∃ f', writeFreeSegments f = (.ok (), f') ∧ f'.header.end_ ≤ kStartBigFile := by
  have hkl : f.keyLenFor f.dir.name f.dir.title (b! "TFile") =
    keyLenFor f.dir.name f.dir.title (b! "TFile") false false := keyLenFor_notBig hf.dirBig hf.notBig _ _ _
  have h26 := (keyLenFor_ge f.dir.name f.dir.title (b! "TFile") false false).1
  unfold writeFreeSegments
  rw [Fs.bind_of_ok (Fs.ok_get.2 ⟨rfl, rfl⟩), if_neg (by omega)]
  have h1 : Fs.sum 0 (f.spans.map FreeSegments.sizeOf) f = (.ok 10, f) := by
    rw [show f.spans = _ from hf.span]; rfl
  rw [Fs.bind_of_ok h1, Fs.bind_of_ok (Key.new_eq hf.span (by decide) (by rw [hkl]; omega))]
  have hbig2 : (f.ended (f.header.end_ + (10 + f.keyLenFor f.dir.name f.dir.title (b! "TFile")))).isBig = false := by
    have : ¬ kStartBigFile < f.header.end_ + (10 + f.keyLenFor f.dir.name f.dir.title (b! "TFile")) := by
      show ¬ 2000000000 < _; rw [hkl]; omega
    simp only [FileW.isBig, FileHeader.isBig, FileW.ended, this, decide_false]
  rw [if_neg (by show f.header.end_ ≠ 0; omega), Fs.bind_of_ok (Fs.ok_get.2 ⟨rfl, rfl⟩), hbig2]
  have hend : ¬ kStartBigFile < (f.ended (f.header.end_ + (10 + f.keyLenFor f.dir.name f.dir.title (b! "TFile")))).header.end_ := by
    show ¬ 2000000000 < f.header.end_ + (10 + f.keyLenFor f.dir.name f.dir.title (b! "TFile"))
    rw [hkl]; omega
  rw [if_neg (by rintro ⟨-, h⟩; exact hend h)]
  have h2 := Fs.marshal_writes (off := 0) (Writes.counted (Writes.each (enc := FreeSegments.enc)
    (l := (f.ended (f.header.end_ + (10 + f.keyLenFor f.dir.name f.dir.title (b! "TFile")))).spans)
    fun s _ => (FreeSegments.writes s).drop))
    (f.ended (f.header.end_ + (10 + f.keyLenFor f.dir.name f.dir.title (b! "TFile"))))
  rw [Fs.bind_of_ok h2, if_neg (by
    show ¬ (((FreeSegments.enc ⟨_, kStartBigFile⟩ ++ []).length : Int) ≠ 10)
    rw [List.append_nil, freeEnc_length _ _ (Int.le_refl _)]; decide),
    Fs.bind_of_ok (Fs.ok_modify.2 rfl : Fs.modify _ _ = (.ok (), _))]
  have hwr : ∀ (buf : List Byte), (Key.at f.dir.name f.dir.title (b! "TFile") 1 10
      (f.keyLenFor f.dir.name f.dir.title (b! "TFile")) f.header.end_ f.dir.seekDir false buf).Writable := by
    intro buf
    rw [hkl]
    exact Key.at_writable (by omega) hf.lo hf.hi (inI4_abs (by omega) (by omega))
  exact ⟨_, Key.writeToFile_eq (hwr _) _, Int.not_lt.1 hend⟩

theorem closing3_header {f : FileW} {s : List StreamerInfo} {i : Nat} {buf : List Byte} (hf : f.Closable)
    (h0 : 0 ≤ infoKeyLen + asI 4 buf.length) (hlim : (closing3 f s i buf).header.end_ ≤ 2000000000) :
    (closing3 f s i buf).header.oneFree.InRange ∧ (closing3 f s i buf).header.wide = false := by
  have hkl1 := (keyLenFor_ge f.dir.name f.dir.title (b! "TDirectory") false false).1
  have hkl2 := (keyLenFor_ge f.dir.name f.dir.title (b! "TFile") false false).1
  have hkn := keysLen_ge hf.keys
  have e1 : (closing1 f).header.end_ = f.header.end_ +
    (keyLenFor f.dir.name f.dir.title (b! "TDirectory") false false + keysLen f.dir) := rfl
  have e2 : (closing2 f s i buf).header.end_ = (closing1 f).header.end_ + (infoKeyLen + asI 4 buf.length) := rfl
  have e3 : (closing3 f s i buf).header.end_ = (closing2 f s i buf).header.end_ +
    (keyLenFor f.dir.name f.dir.title (b! "TFile") false false + 10) := rfl
  have k1 : (closing3 f s i buf).header.seekInfo = (closing1 f).header.end_ := rfl
  have k2 : (closing3 f s i buf).header.seekFree = (closing2 f s i buf).header.end_ := rfl
  have hl := hf.lo100
  have q1 : (closing3 f s i buf).header.version = f.header.version := rfl
  have q2 : (closing3 f s i buf).header.nBytesName = f.header.nBytesName := rfl
  have q3 : (closing3 f s i buf).header.units = f.header.units := rfl
  have q4 : (closing3 f s i buf).header.compression = f.header.compression := rfl
  have q5 : (closing3 f s i buf).header.uuid = f.header.uuid := rfl
  have q6 : (closing3 f s i buf).header.begin_ = f.header.begin_ := rfl
  have q7 : (closing3 f s i buf).header.nBytesInfo = infoKeyLen + asI 4 buf.length := rfl
  have q8 : (closing3 f s i buf).header.nBytesFree =
    keyLenFor f.dir.name f.dir.title (b! "TFile") false false + 10 := rfl
  generalize (closing3 f s i buf) = f3 at *
  generalize (closing2 f s i buf) = f2 at *
  generalize (closing1 f) = f1 at *
  have hw : f3.header.wide = false := by
    have w1 : decide (kStartBigFile < f3.header.end_) = false := decide_eq_false (by unfold kStartBigFile; omega)
    have w2 : decide (kStartBigFile < f3.header.seekFree) = false := decide_eq_false (by unfold kStartBigFile; omega)
    have w3 : decide (kStartBigFile < f3.header.seekInfo) = false := decide_eq_false (by unfold kStartBigFile; omega)
    simp only [FileHeader.wide, FileHeader.isBig, w1, w2, w3, Bool.or_self]
  refine ⟨?_, hw⟩
  obtain ⟨r1, r2, r3, r4, r5, r6, r7, r8, r9, r10, r11, r12, r13, r14, r15, r16, r17⟩ := hf.range
  have q9 : f3.header.oneFree.wide = false := hw
  refine ⟨?_, ?_, ?_, ?_, ?_, ?_, (by decide : InI 4 1), ?_, ?_, ?_, ?_, ?_, ?_, ?_, ?_, ?_, ?_⟩
  · show 0 ≤ f3.header.version
    rw [q1]; exact r1
  · show f3.header.version < 1000000
    rw [q1]; exact r2
  · show InI 4 f3.header.begin_
    rw [q6]; exact r3
  · show InI 8 f3.header.end_
    constructor <;> omega
  · show InI 8 f3.header.seekFree
    rw [k2]; constructor <;> omega
  · show InI 4 f3.header.nBytesFree
    rw [q8]; constructor <;> omega
  · show InI 4 f3.header.nBytesName
    rw [q2]; exact r8
  · show f3.header.units < 256
    rw [q3]; exact r9
  · show InI 4 f3.header.compression
    rw [q4]; exact r10
  · show InI 8 f3.header.seekInfo
    rw [k1]; constructor <;> omega
  · show InI 4 f3.header.nBytesInfo
    rw [q7]; constructor <;> omega
  · show f3.header.uuid.length = 16
    rw [q5]; exact r13
  · rw [q9]; simp
  · show 0 ≤ f3.header.end_
    omega
  · show 0 ≤ f3.header.seekFree
    omega
  · show 0 ≤ f3.header.seekInfo
    omega

/-- A file closes if what is added fits below 2 GB. -/
theorem close_small {env : Env} {path : Str} {f : FileW} {s : List StreamerInfo} {i n : Nat} {w : WBuffer}
    (hi : Inv path f) (hb : f.Below2GB)
    (hdeps : findDeepStreamer env (closing1 f) = (.ok (), { closing1 f with sinfos := s, ids := i }))
    (hm : TList.marshal TObject.default none (placedInfos env 0 s) (WBuffer.new infoKeyLen.toNat) = .ok (n, w))
    (hroom : f.header.end_ + (kl path [] (b! "TDirectory") + keysLen f.dir) + (infoKeyLen + w.p.length) +
      (kl path [] (b! "TFile") + 10) ≤ 2000000000) :
    Closes env f (closedFile f s i w.p) := by
  have hcl := hi.closable
  have hn : f.dir.name = path := by rw [hi.dir]; rfl
  have ht : f.dir.title = [] := by rw [hi.dir]; rfl
  have hlo := hi.lo
  have hdp := dirPos_ge path
  have hkn := keysLen_ge hcl.keys
  have k1 : 26 ≤ kl path [] (b! "TDirectory") := (keyLenFor_ge _ _ _ false false).1
  have k2 : infoKeyLen = 64 := by decide
  have k3 : 26 ≤ kl path [] (b! "TFile") := (keyLenFor_ge _ _ _ false false).1
  have hlen : (w.p.length : Int) ≤ kStartBigFile := by unfold kStartBigFile; omega
  have ha := asI4_nat hlen
  have e1 : (closing1 f).header.end_ = f.header.end_ + (kl path [] (b! "TDirectory") + keysLen f.dir) := by
    show f.header.end_ + (kl f.dir.name f.dir.title (b! "TDirectory") + keysLen f.dir) = _
    rw [hn, ht]
  have e2 : (closing2 f s i w.p).header.end_ = (closing1 f).header.end_ + (infoKeyLen + w.p.length) := by
    rw [← ha]; rfl
  have e3 : (closing3 f s i w.p).header.end_ = (closing2 f s i w.p).header.end_ +
      (kl path [] (b! "TFile") + 10) := by
    show _ + (kl f.dir.name f.dir.title (b! "TFile") + 10) = _
    rw [hn, ht]
  have z1 : f.header.seekInfo = 0 := by rw [hi.hdr]; rfl
  have z2 : f.header.seekFree = 0 := by rw [hi.hdr]; rfl
  obtain ⟨d1, f1, h0, l1⟩ := saveKeys_small hi (by omega)
  obtain ⟨a1, a2, a3, a4⟩ := saveKeys_ok hcl.toGood hcl.keys h0
  have hd1 : d1.ctime = dateNow := by rw [a3]; exact hcl.ctime
  have hp1 : d1.seekDir + d1.nBytesName = f.dir.seekDir + f.dir.nBytesName := by rw [a3]
  have ec : ({ f1 with dir := { d1 with mtime := dateNow }
                       trace := f1.trace ++ [⟨(d1.seekDir + d1.nBytesName).toNat,
                        ({ d1 with mtime := dateNow } : Dir).enc packedNow packedNow⟩] } : FileW) =
      closing1 f := by
    rw [a4 l1, a3, a1]
    rfl
  have g1 : (closing1 f).Good :=
    ⟨⟨rfl, hcl.comp, hcl.dirv⟩, by omega, by unfold kStartBigFile; omega⟩
  obtain ⟨f2, h2⟩ := writeStreamerInfo_small g1 z1 hdeps hm (by omega)
  obtain ⟨g, buf, n', b1, b2, b3, ⟨w', b4, b5⟩, b6, b7⟩ := writeStreamerInfo_ok g1 h2
  rw [hdeps] at b1
  cases b1
  rw [hm] at b4
  cases b4
  subst b5
  have hf2 : f2 = closing2 f s i w.p := b7
  have g2 : (closing2 f s i w.p).Good :=
    ⟨⟨rfl, hcl.comp, hcl.dirv⟩, by omega, by unfold kStartBigFile; omega⟩
  have hroom3 : (closing2 f s i w.p).header.end_ + (keyLenFor (closing2 f s i w.p).dir.name
      (closing2 f s i w.p).dir.title (b! "TFile") false false + 10) ≤ 2000000000 := by
    show _ + (kl f.dir.name f.dir.title (b! "TFile") + 10) ≤ _
    rw [hn, ht]; omega
  obtain ⟨f3, h4, l3⟩ := writeFreeSegments_small g2 z2 (by omega) hroom3
  obtain ⟨-, -, c3⟩ := writeFreeSegments_ok g2 h4
  have hf3 : f3 = closing3 f s i w.p := c3 l3
  subst hf3
  obtain ⟨hr, hw⟩ := closing3_header (i := i) (s := s) hcl b6 (by omega)
  have h5 : closeFile env f = (.ok (), closedFile f s i w.p) := by
    unfold closeFile
    rw [Fs.bind_of_ok (Fs.ok_get.2 ⟨rfl, rfl⟩), Fs.bind_of_ok h0,
      Fs.bind_of_ok (writeDirHeader_eq f1 hd1 (by rw [hp1]; exact hcl.pos)),
      Fs.bind_of_ok (Fs.ok_modify.2 rfl : Fs.modify _ _ = (.ok (), _))]
    have h2' := (congrArg (writeStreamerInfo env) ec).trans h2
    rw [hf2] at h2'
    rw [Fs.bind_of_ok h2', Fs.bind_of_ok h4]
    exact writeHeader_eq rfl hcl.begin_ hr hw
  have hend : (closedFile f s i w.p).header.end_ = (closing3 f s i w.p).header.end_ := rfl
  have hc : ClosedAs env path f (closedFile f s i w.p) s i w.p :=
    ⟨rfl, hdeps, ⟨n, w, hm, rfl⟩, hlen, hr, hw, e1, e2, hend.trans e3⟩
  refine ⟨h5, by omega, ?_⟩
  have hp := hc.placed hi
  obtain ⟨p1, p2⟩ := dirWrite_eq hi
  have he : (closing3 f s i w.p).header.oneFree.enc.length ≤ 100 := by
    rw [FileHeader.enc_length hr, show (closing3 f s i w.p).header.oneFree.wide = false from hw]
    decide
  intro x hx
  rw [closedFile_trace] at hx
  rcases List.mem_append.1 hx with hx | hx
  · rcases List.mem_append.1 hx with hx | hx
    · rcases List.mem_append.1 hx with hx | hx
      · rcases List.mem_append.1 hx with hx | hx
        · exact hb.data x hx
        · have := hp.mem (List.mem_append_left _ hx)
          omega
      · rw [List.mem_singleton] at hx
        subst hx
        omega
    · have := hp.mem (List.mem_append_right _ hx)
      omega
  · rcases List.mem_cons.1 hx with rfl | hx
    · simp only [List.length_replicate]; omega
    · rw [List.mem_singleton] at hx
      subst hx
      show 0 + (closing3 f s i w.p).header.oneFree.enc.length ≤ 2000000000
      omega

end Verif
