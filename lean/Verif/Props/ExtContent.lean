import Verif.ExtContent
import Verif.Props.Content

/- C64: the content of an EXT_DEF_CONTENT DES (model in `Verif/ExtContent.lean`). -/

namespace Verif

variable (P : PyFloat)

/-! ### The user subheader as written depends on the attributes only -/

/-- What is written is determined by the text, whatever the two fields held before. -/
theorem writeHeaders_text : ∃ f : Bytes → Except Err Bytes, ∀ (a : Headers) (S : Store P.F),
    writeHeaders P none a S = (f (headerText a)).map fun b => (a, b) := by
  obtain ⟨fi, hr, hf, hk, hty, hu, hsz, hc, hsh, hv, hh, ho, hnm⟩ := ch_text
  obtain ⟨fm, hm, hsc, hmk, hmt, hmc, hms, hmf, hmo⟩ := ch_len.at_
  refine ⟨fun t => (encodeVal P fm.fd (4 : Nat) (.int t.length)).map fun b => b ++ t, ?_⟩
  intro a S
  have hw : writeHeaders P none a S =
      match setAttr P chD S (n!"content_headers") [] (.bytes (headerText a)) with
      | (_, some e) => .error e
      | (S', none) => (writeStruct P chD S').map fun b => (a, b) := rfl
  rw [hw]
  have hs := content_setAttr P S (headerText a)
  generalize headerText a = t at hs ⊢
  rw [hs]
  simp only
  unfold setAttr at hs
  rw [hr] at hs
  have hb1 := ((C13_size_consistent P ch_causal hf (.inl hk) hty hu hsz ch_len.res hm hmk hmt hs).2.2
    (by unfold checkIndex; simp [hsh]) (evalCond_none P hc _ _)).2
  generalize hS' : (S.set 1 [] ⟨.val (.bytes t), none⟩).set 0 []
    ⟨.val (.int (t.length : Int)), none⟩ = S' at hb1
  have h0 : S' 0 [] = some ⟨.val (.int (t.length : Int)), none⟩ := by rw [← hS']; simp [Store.set]
  have hb0 : fieldBytes P (look P chD.tab S') S' fm 0 [] =
      encodeVal P fm.fd (4 : Nat) (.int t.length) := by
    unfold fieldBytes
    rw [Scalar.size_const P hms hmo]
    have : stored S' fm.fd 0 [] = .val (.int t.length) := by unfold stored; rw [h0]
    rw [this]
    simp only
    rw [hsc.lowGet P (evalCond_none P hmc _ _), this, finish_int P hmt]
  rw [← hb0]
  have hwc : writeChunks P chD S' = writeD P chD.tab S' 0 [] chD := rfl
  unfold writeStruct
  rw [hwc]
  unfold chD Tables.t_des_ext_def_content at hm hf hb0 hb1 ⊢
  simp only [writeD, hm, hf, evalCond_none P hmc, evalCond_none P hc, hb1]
  cases fieldBytes P (look P _ S') S' fm 0 [] with
  | error e => simp [Except.map]
  | ok b => simp [Except.map, chunkBytes]

theorem headerText_congr {a a' : Headers} (h : ∀ n ∈ headerNames, a n = a' n) :
    headerText a = headerText a' := by
  have : ∀ ns : List Bytes, (∀ n ∈ ns, a n = a' n) →
      ns.filterMap (snippet a) = ns.filterMap (snippet a') := by
    intro ns
    induction ns with
    | nil => intro _; rfl
    | cons n r ih =>
      intro h
      rw [List.filterMap_cons, List.filterMap_cons, ih fun m hm => h m (by simp [hm])]
      unfold snippet
      rw [h n (by simp)]
  unfold headerText
  rw [this _ h]

theorem writeExtHeader_congr {o o' : ExtObj}
    (h : ∀ n ∈ headerNames, o.outHdrs n = o'.outHdrs n) :
    writeExtHeader P o = writeExtHeader P o' := by
  obtain ⟨f, hf⟩ := writeHeaders_text P
  unfold writeExtHeader
  rw [hf, hf, headerText_congr h]
  cases f (headerText o'.outHdrs) <;> rfl

theorem writeExt_ok {d : Disk} {o : ExtObj} {hb cb : Bytes} (h : writeExt P d o = .ok (hb, cb)) :
    writeExtHeader P o = .ok hb ∧ writeExtData d o = .ok cb := by
  unfold writeExt at h
  cases h1 : writeExtHeader P o with
  | error e => rw [h1] at h; cases h
  | ok x =>
    rw [h1] at h
    simp only at h
    cases h2 : writeExtData d o with
    | error e => rw [h2] at h; cases h
    | ok y =>
      rw [h2] at h
      cases h
      exact ⟨rfl, rfl⟩

theorem ctype_mem : lit "Content-Type" ∈ headerNames := by decide +kernel

theorem headers_back {o : ExtObj} {hb : Bytes} (hp : Plain o.outHdrs)
    (h : writeExtHeader P o = .ok hb) :
    ∃ r, readHeaders P hb = .ok (r, []) ∧ ∀ n ∈ headerNames, r n = o.outHdrs n := by
  unfold writeExtHeader at h
  cases hw : writeHeaders P none o.outHdrs Store.empty with
  | error e => rw [hw] at h; cases h
  | ok x =>
    rw [hw] at h
    cases h
    obtain ⟨r1, r, r2, r3⟩ := C46_file_partial P (size := none) NoLit.empty hp hw []
    rw [List.append_nil] at r2
    refine ⟨r, r2, ?_⟩
    intro n hn
    rw [r3 n hn, r1]
    rfl

theorem readCls_exact (h5 : Bool) (a : Headers) (cb rest : Bytes)
    (hc : h5 = true → a (lit "Content-Type") = some (lit "application/x-hdf5")) :
    readExtCls P h5 (.str "EXT_DEF_CONTENT".toList) a cb.length (cb ++ rest) =
      .ok (some (⟨h5, false, some cb.length, some cb, none, a⟩, rest)) := by
  unfold readExtCls
  rw [if_pos (by simp [pyEq])]
  rw [if_neg (by
    cases h5
    · simp
    · simp [hc rfl])]
  rw [if_neg (by simp only [List.length_append]; omega)]
  simp

/-! ### C64 -/

/-- C64.  What is written for an object with an attached file is the file as it is then. -/
theorem C64_attached {d : Disk} {o : ExtObj} {p : Str} (h5 : o.h5 = true) (hf : o.file = some p)
    (b : Bytes) : writeExtData d o = .ok b ↔ d p = some b := by
  unfold writeExtData
  rw [if_pos h5, hf]
  cases h : d p <;> simp [h]

/-- C64.  A DES with HDF5 content: whenever writing succeeds, reading what was written gives an
object with exactly the content written and all header values, and that object, whatever has become
of the attached file, writes the same bytes again.  Needs: header values the block can carry (C46). -/
theorem C64_round_partial {d : Disk} {o : ExtObj} {hb cb : Bytes} (hp : Plain o.outHdrs)
    (hc : o.outHdrs (lit "Content-Type") = some (lit "application/x-hdf5"))
    (h : writeExt P d o = .ok (hb, cb)) (rest : Bytes) :
    ∃ o', readExt P hb cb.length (cb ++ rest) = .ok (some (o', rest)) ∧ o'.h5 = true ∧
      o'.data = some cb ∧ (∀ n ∈ attributes, o'.hdrs n = o.outHdrs n) ∧
      ∀ d', writeExt P d' o' = .ok (hb, cb) := by
  obtain ⟨h1, h2⟩ := writeExt_ok P h
  obtain ⟨r, r1, r2⟩ := headers_back P hp h1
  refine ⟨⟨true, false, some cb.length, some cb, none, r⟩, ?_, rfl, rfl, r2, ?_⟩
  · unfold readExt
    rw [r1]
    simp only
    unfold readExtData
    rw [readCls_exact P true r cb rest (fun _ => by rw [r2 _ ctype_mem, hc])]
  · intro d'
    have : writeExtHeader P ⟨true, false, some cb.length, some cb, none, r⟩ = .ok hb := by
      rw [← h1]
      exact writeExtHeader_congr P fun n hn => r2 n hn
    unfold writeExt
    rw [this]
    rfl

/-- C64, the full statement fails: content that is not HDF5 is read back exactly, but the object read
writes as many zero bytes in its place. -/
theorem C64_other_content_zeros {d : Disk} {o : ExtObj} {hb cb : Bytes} (hp : Plain o.outHdrs)
    (hc : o.outHdrs (lit "Content-Type") ≠ some (lit "application/x-hdf5"))
    (h : writeExtHeader P o = .ok hb) (rest : Bytes) :
    ∃ o', readExt P hb cb.length (cb ++ rest) = .ok (some (o', rest)) ∧ o'.h5 = false ∧
      o'.data = some cb ∧ (∀ n ∈ attributes, o'.hdrs n = o.outHdrs n) ∧
      writeExt P d o' = .ok (hb, List.replicate cb.length 0) := by
  obtain ⟨r, r1, r2⟩ := headers_back P hp h
  refine ⟨⟨false, false, some cb.length, some cb, none, r⟩, ?_, rfl, rfl, r2, ?_⟩
  · unfold readExt
    rw [r1]
    simp only
    unfold readExtData
    have : readExtCls P true (.str "EXT_DEF_CONTENT".toList) r cb.length (cb ++ rest) = .ok none := by
      unfold readExtCls
      rw [if_pos (by simp [pyEq]), if_pos]
      rw [r2 _ ctype_mem]
      simpa using hc
    rw [this]
    simp only
    rw [readCls_exact P false r cb rest (fun h => by cases h)]
  · have : writeExtHeader P ⟨false, false, some cb.length, some cb, none, r⟩ = .ok hb := by
      rw [← h]
      exact writeExtHeader_congr P fun n hn => r2 n hn
    unfold writeExt
    rw [this]
    simp [writeExtData]

/-- C64.  Which class reads: HDF5 content is always read by DesEXT_h5, any other content by
DesEXT_DEF_CONTENT, and every success takes exactly the bytes of the segment. -/
theorem C64_class {a : Headers} {size : Int} {b rest : Bytes} {o : ExtObj}
    (h : readExtData P (.str "EXT_DEF_CONTENT".toList) a size b = .ok (some (o, rest))) :
    (o.h5 = true ↔ a (lit "Content-Type") = some (lit "application/x-hdf5")) ∧ o.hdrs = a ∧
      ∃ c, o.data = some c ∧ (c.length : Int) = size ∧ b = c ++ rest := by
  have hid : pyEq P (.str "EXT_DEF_CONTENT".toList) (.str "EXT_DEF_CONTENT".toList) = true := by
    simp [pyEq]
  by_cases hz : size < 0 ∨ (b.length : Int) < size
  · unfold readExtData readExtCls at h
    rw [if_pos hid, if_pos hid, if_pos hz, if_pos hz] at h
    by_cases hc : a (lit "Content-Type") = some (lit "application/x-hdf5")
    · simp [hc] at h
    · simp [hc] at h
  · have key : ∃ c : Bytes, some (b.take size.toNat) = some c ∧ (c.length : Int) = size ∧
        b = c ++ b.drop size.toNat :=
      ⟨_, rfl, by rw [List.length_take]; omega, (List.take_append_drop _ _).symm⟩
    unfold readExtData readExtCls at h
    rw [if_pos hid, if_pos hid, if_neg hz, if_neg hz] at h
    by_cases hc : a (lit "Content-Type") = some (lit "application/x-hdf5")
    · simp only [hc, bne_self_eq_false, Bool.and_false, Bool.false_eq_true, if_false] at h
      cases h
      exact ⟨by simp [hc], rfl, key⟩
    · have : (true && a (lit "Content-Type") != some (lit "application/x-hdf5")) = true := by
        simpa using hc
      rw [if_pos this] at h
      simp only [Bool.false_and, Bool.false_eq_true, if_false] at h
      cases h
      exact ⟨by simp [hc], rfl, key⟩

theorem extRun_h5 (l : List (Disk × ExtOp)) (o : ExtObj) :
    (extRun o l).h5 = o.h5 ∧ (extRun o l).owned = o.owned := by
  induction l generalizing o with
  | nil => exact ⟨rfl, rfl⟩
  | cons x r ih =>
    have := ih (extStep o x)
    unfold extRun at this ⊢
    rw [List.foldl_cons, this.1, this.2]
    obtain ⟨d, op⟩ := x
    cases op with
    | put n v => exact ⟨rfl, rfl⟩
    | attach p disp =>
      show (attachFile d o p disp).1.h5 = _ ∧ (attachFile d o p disp).1.owned = _
      unfold attachFile
      cases d p <;> exact ⟨rfl, rfl⟩

theorem extRun_put (l : List (Disk × Bytes × Option Bytes)) (o : ExtObj) :
    (extRun o (l.map fun x => (x.1, .put x.2.1 x.2.2))).size = o.size ∧
      (extRun o (l.map fun x => (x.1, .put x.2.1 x.2.2))).file = o.file := by
  induction l generalizing o with
  | nil => exact ⟨rfl, rfl⟩
  | cons x r ih =>
    have := ih (o.put x.2.1 x.2.2)
    unfold extRun at this ⊢
    rw [List.map_cons, List.foldl_cons]
    exact this

/-- C64.  The length announced.  Make an HDF5 DES, do anything with it, attach a file, then set any
header values.  If the file has at the time of writing the length it had when it was attached, the
header value `Content-Length` is the decimal number of the bytes of content written. -/
theorem C64_length_partial {id1 id2 : Bytes} (before : List (Disk × ExtOp)) {d0 d : Disk} {p : Str}
    {disp b0 b : Bytes} (h0 : d0 p = some b0) (after : List (Disk × Bytes × Option Bytes))
    (h : d p = some b) (hl : b.length = b0.length) :
    let o := extRun (newH5 id1 id2)
      (before ++ (d0, .attach p disp) :: after.map fun x => (x.1, .put x.2.1 x.2.2))
    writeExtData d o = .ok b ∧
      o.outHdrs (lit "Content-Length") = some (utf8Enc (decStr b.length)) := by
  intro o
  have ho : o = extRun (attachFile d0 (extRun (newH5 id1 id2) before) p disp).1
      (after.map fun x => (x.1, .put x.2.1 x.2.2)) := by
    show extRun _ _ = _
    unfold extRun
    rw [List.foldl_append, List.foldl_cons]
    rfl
  have h5 := extRun_h5 (before ++ (d0, .attach p disp) :: after.map fun x => (x.1, .put x.2.1 x.2.2))
    (newH5 id1 id2)
  have hk := extRun_put after (attachFile d0 (extRun (newH5 id1 id2) before) p disp).1
  rw [← ho] at hk
  have hs : o.size = some (b0.length : Int) := by rw [hk.1]; simp [attachFile, h0]
  have hf : o.file = some p := by rw [hk.2]; simp [attachFile, h0, ExtObj.put]
  refine ⟨(C64_attached h5.1 hf b).2 h, ?_⟩
  unfold ExtObj.outHdrs
  rw [if_pos (show o.owned = true from h5.2), hs, hl]
  simp [ExtObj.put, sizeText, intStr]

theorem extRun_type (l : List (Disk × ExtOp)) (o : ExtObj)
    (hl : ∀ x ∈ l, ∀ n v, x.2 = .put n v → n ≠ lit "Content-Type") :
    (extRun o l).hdrs (lit "Content-Type") = o.hdrs (lit "Content-Type") := by
  induction l generalizing o with
  | nil => rfl
  | cons x r ih =>
    have h := ih (extStep o x) fun y hy => hl y (List.mem_cons_of_mem _ hy)
    unfold extRun at h ⊢
    rw [List.foldl_cons, h]
    obtain ⟨d, op⟩ := x
    cases op with
    | put n v => exact if_neg fun e => hl _ List.mem_cons_self n v rfl e.symm
    | attach p disp =>
      show (attachFile d o p disp).1.hdrs _ = _
      unfold attachFile
      cases d p with
      | none => rfl
      | some b =>
        have n : ¬ lit "Content-Type" = lit "Content-Disposition" := by decide +kernel
        dsimp only [ExtObj.put]
        rw [if_neg n]

/-- C64.  Whatever is done with a new HDF5 DES, as long as its content type is not changed: what is
written is read back as HDF5 content, byte for byte.  Needs: header values the block can carry
(C46). -/
theorem C64_new_h5 {id1 id2 : Bytes} {l : List (Disk × ExtOp)}
    (hl : ∀ x ∈ l, ∀ n v, x.2 = .put n v → n ≠ lit "Content-Type") {d : Disk} {hb cb : Bytes}
    (hp : Plain (extRun (newH5 id1 id2) l).outHdrs)
    (h : writeExt P d (extRun (newH5 id1 id2) l) = .ok (hb, cb)) (rest : Bytes) :
    ∃ o', readExt P hb cb.length (cb ++ rest) = .ok (some (o', rest)) ∧ o'.h5 = true ∧
      o'.data = some cb := by
  have ht : (extRun (newH5 id1 id2) l).outHdrs (lit "Content-Type") =
      some (lit "application/x-hdf5") := by
    have e := extRun_type l (newH5 id1 id2) hl
    have e0 : (newH5 id1 id2).hdrs (lit "Content-Type") = some (lit "application/x-hdf5") := by
      have n1 : ¬ lit "Content-Type" = lit "DES-ID1" := by decide +kernel
      have n2 : ¬ lit "Content-Type" = lit "DES-ID2" := by decide +kernel
      unfold newH5 ExtObj.put
      dsimp only
      rw [if_neg n2, if_neg n1, if_pos rfl]
    unfold ExtObj.outHdrs
    have n3 : ¬ lit "Content-Type" = lit "Content-Length" := by decide +kernel
    split
    · unfold ExtObj.put
      dsimp only
      rw [if_neg n3, e, e0]
    · rw [e, e0]
  obtain ⟨o', h1, h2, h3, _⟩ := C64_round_partial P hp ht h rest
  exact ⟨o', h1, h2, h3⟩

/-- C64.  Comparing two objects that were read: the same exactly if their contents are the same, unless
the comparison is switched off. -/
theorem C64_compare {d1 d2 : ExtObj} {c1 c2 : Bytes} (h1 : d1.data = some c1)
    (h2 : d2.data = some c2) (exclude warn : Bool) :
    extSame exclude warn d1 d2 = true ↔ exclude = true ∨ warn = true ∨ c1 = c2 := by
  unfold extSame
  rw [h1, h2]
  cases exclude <;> cases warn <;> simp

/-! ### Where the full statement fails -/

def exDisk (b : Bytes) : Disk := fun p => if p = "a.h5".toList then some b else none

/-- An HDF5 DES with a file attached that holds `b`. -/
def exH5 (b : Bytes) : ExtObj :=
  extRun (newH5 (lit "h5file") (lit "x")) [(exDisk b, .attach "a.h5".toList (lit "attachment"))]

/-- The file grows after it was attached: five bytes are written, three announced. -/
theorem C64_stale_length :
    writeExtData (exDisk [1, 2, 3, 4, 5]) (exH5 [1, 2, 3]) = .ok [1, 2, 3, 4, 5] ∧
      (exH5 [1, 2, 3]).outHdrs (lit "Content-Length") = some (lit "3") := by decide +kernel

/-- A DES that was read gets another file: the new content is written, the old length announced. -/
theorem C64_attach_after_read {a : Headers} {size : Int} {b rest : Bytes} {o : ExtObj}
    (h : readExtData P (.str "EXT_DEF_CONTENT".toList) a size b = .ok (some (o, rest)))
    (d : Disk) (p : Str) (disp : Bytes) :
    (attachFile d o p disp).1.outHdrs (lit "Content-Length") = a (lit "Content-Length") := by
  have ho : o.owned = false ∧ o.hdrs = a := by
    refine ⟨?_, (C64_class P h).2.1⟩
    unfold readExtData readExtCls at h
    split at h
    · cases h
    · rename_i hh
      split at hh
      · split at hh
        · cases hh
        · split at hh
          · cases hh
          · cases hh
            cases h
            rfl
      · cases hh
    · split at h
      · split at h
        · cases h
        · split at h
          · cases h
          · cases h
            rfl
      · cases h
  unfold attachFile
  have hne : lit "Content-Length" ≠ lit "Content-Disposition" := by decide +kernel
  cases d p with
  | none => simp [ExtObj.outHdrs, ho.1, ho.2]
  | some b => simp [ExtObj.outHdrs, ExtObj.put, ho.1, ho.2, hne]

/-- A DES made without a size announces the length `None`. -/
theorem C64_no_size :
    (newExt none).outHdrs (lit "Content-Length") = some (lit "None") ∧
      (newH5 [] []).outHdrs (lit "Content-Length") = some (lit "None") := by decide +kernel

/-- C64.  What a new DES with a size says of itself before any attribute is set: every entry is there and
empty, apart from the length and the two that are left out. -/
theorem C64_new_text (n : Int) :
    headerText (newExt (some n)).outHdrs =
      lit "Content-Type: \r\nContent-Use: \r\nContent-Length: " ++ utf8Enc (intStr n) ++
      lit "\r\nContent-Description: \r\nContent-Disposition: \r\nCanonical-ID: \r\nDES-ID1: \r\nDES-ID2: \r\n" := by
  have hf : headerNames.filterMap (snippet (newExt (some n)).outHdrs) =
      [lit "Content-Type: ", lit "Content-Use: ", lit "Content-Length: " ++ utf8Enc (intStr n),
        lit "Content-Description: ", lit "Content-Disposition: ", lit "Canonical-ID: ", lit "DES-ID1: ",
        lit "DES-ID2: "] := by
    rfl
  unfold headerText
  rw [hf]
  simp only [joinWith, List.append_assoc]
  have e1 : lit "Content-Type: \r\nContent-Use: \r\nContent-Length: " =
      lit "Content-Type: " ++ (lit "\r\n" ++ (lit "Content-Use: " ++ (lit "\r\n" ++ lit "Content-Length: "))) := rfl
  have e2 : lit "\r\nContent-Description: \r\nContent-Disposition: \r\nCanonical-ID: \r\nDES-ID1: \r\nDES-ID2: \r\n" =
      lit "\r\n" ++ (lit "Content-Description: " ++ (lit "\r\n" ++ (lit "Content-Disposition: " ++ (lit "\r\n" ++
        (lit "Canonical-ID: " ++ (lit "\r\n" ++ (lit "DES-ID1: " ++ (lit "\r\n" ++ (lit "DES-ID2: " ++
          lit "\r\n"))))))))) := rfl
  rw [e1, e2]
  simp only [List.append_assoc]

/-- Two new objects with different files attached compare as the same. -/
theorem C64_compare_unread : extSame false false (exH5 [1]) (exH5 [2, 3]) = true ∧
    writeExtData (exDisk [1]) (exH5 [1]) ≠ writeExtData (exDisk [2, 3]) (exH5 [2, 3]) := by
  decide +kernel

/-! ### A concrete case -/

example : Plain (exH5 [1, 2, 3]).outHdrs ∧
    (exH5 [1, 2, 3]).outHdrs (lit "Content-Type") = some (lit "application/x-hdf5") := by
  refine ⟨?_, by decide +kernel⟩
  have h : ∀ n ∈ headerNames, ∀ v ∈ (exH5 [1, 2, 3]).outHdrs n,
      (32 : UInt8) ∉ v ∧ (13 : UInt8) ∉ v := by decide +kernel
  refine ⟨fun n hn v hv hh => (h n hn v hv).1 hh.mem.2, fun n hn v hv hh => (h n hn v hv).2 hh.mem.1,
    ?_, by decide +kernel⟩
  intro v hv
  rw [show (exH5 [1, 2, 3]).outHdrs (lit "DES-ID2") = some (lit "x") by decide +kernel] at hv
  cases hv
  decide +kernel

example : (writeExt P0 (exDisk [1, 2, 3]) (exH5 [1, 2, 3])).map (·.2) = .ok [1, 2, 3] := by
  decide +kernel

/-- Content that is not HDF5, as in a file written by another program. -/
example : ∃ o', readExtData P0 (.str "EXT_DEF_CONTENT".toList)
      (withValue (lit "Content-Type") (some (lit "text/xml"))) 2 [60, 62, 9] = .ok (some (o', [9])) ∧
    o'.data = some [60, 62] ∧ writeExtData (fun _ => none) o' = .ok [0, 0] :=
  ⟨⟨false, false, some 2, some [60, 62], none,
    withValue (lit "Content-Type") (some (lit "text/xml"))⟩, rfl, rfl, rfl⟩

end Verif
