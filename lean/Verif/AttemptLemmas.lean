import Verif.Attempt
import Verif.Props.WriteOk

/- Rules for computations with states in between, and `attempt` compared with `writeFile`. -/

namespace Verif.Attempt

open Verif

variable {P : PyFloat} {IO : DataIO P.F} {α β : Type}

/-! ### Results -/

theorem bind_eq (m : T P IO α) (k : α → T P IO β) (s : Obj P IO) :
    ((m >>= k) s) = match m s with
      | (l, .error e) => (l, .error e)
      | (l, .ok (a, s')) => (l ++ (k a s').1, (k a s').2) := rfl

theorem res_bind (m : T P IO α) (k : α → T P IO β) (s : Obj P IO) :
    ((m >>= k) s).2 = match (m s).2 with
      | .error e => .error e
      | .ok (a, s') => (k a s').2 := by
  rw [bind_eq]
  rcases m s with ⟨l, _ | ⟨a, s'⟩⟩ <;> rfl

theorem res_pure (a : α) (s : Obj P IO) : ((pure a : T P IO α) s).2 = .ok (a, s) := rfl
theorem res_get (s : Obj P IO) : (get s).2 = .ok (s, s) := rfl
theorem res_put (t s : Obj P IO) : (put t s).2 = .ok ((), t) := rfl
theorem res_raise (e : Err) (s : Obj P IO) : ((raise e : T P IO α) s).2 = .error e := rfl
theorem res_lift (x : Except Err α) (s : Obj P IO) :
    (lift x s).2 = match x with
      | .error e => .error e
      | .ok a => .ok (a, s) := by
  cases x <;> rfl

theorem setSegs_segs {F D : Type} (f : NFile F D) (k : SegKind) (l : List (Seg F D)) :
    (setSegs f k l).segs k = l := by cases k <;> rfl

theorem setSegs_self {F D : Type} (f : NFile F D) (k : SegKind) : setSegs f k (f.segs k) = f := by
  cases k <;> rfl

theorem setSegs_twice {F D : Type} (f : NFile F D) (k : SegKind) (l l' : List (Seg F D)) :
    setSegs (setSegs f k l) k l' = setSegs f k l' := by cases k <;> rfl

theorem res_prepareEach (k : SegKind) (hk : k ≠ .des) (areas : List Area) (ha : k.areas = some areas)
    (rest : List (Seg P.F IO.D)) : ∀ (done : List (Seg P.F IO.D)) (f : NFile P.F IO.D) (out : Bytes),
    f.segs k = done ++ rest →
    (prepareEach k areas done rest (f, out)).2 =
      match prepareSegs P IO k done.length rest f.des with
      | .error e => .error e
      | .ok (rs, des) => .ok ((), { setSegs f k (done ++ rs) with des := des }, out) := by
  induction rest with
  | nil =>
    intro done f out hf
    rw [List.append_nil] at hf
    simp only [prepareEach, prepareSegs, res_pure, List.append_nil, ← hf, setSegs_self]
  | cons s ss ih =>
    intro done f out hf
    conv => lhs; unfold prepareEach
    simp only [res_bind, res_get, res_lift, prepareSegs, ha]
    cases h1 : prepareHeader P IO k.desc areas k.secPrefix k.oflName done.length s.tres s.sub f.des with
    | error e => rfl
    | ok r =>
      obtain ⟨S', des⟩ := r
      simp only [res_put]
      rw [ih]
      · simp only [List.length_append, List.length_cons, List.length_nil, Nat.zero_add]
        cases h2 : prepareSegs P IO k (done.length + 1) ss des with
        | error e => rfl
        | ok r =>
          obtain ⟨rs, des'⟩ := r
          cases k <;> first | exact absurd rfl hk | simp [setSegs]
      · cases k <;> first | exact absurd rfl hk | simp [setSegs, NFile.segs]

theorem res_prepareKind (k : SegKind) (hk : k ≠ .des) (f : NFile P.F IO.D) (out : Bytes) :
    (prepareKind k (f, out)).2 =
      match prepareSegs P IO k 0 (f.segs k) f.des with
      | .error e => .error e
      | .ok (rs, des) => .ok ((), { setSegs f k rs with des := des }, out) := by
  unfold prepareKind
  simp only [res_bind, res_get]
  cases ha : k.areas with
  | some areas =>
    simp only
    rw [res_prepareEach k hk areas ha (f.segs k) [] f out rfl]
    rfl
  | none =>
    simp only [res_pure]
    cases hs : f.segs k with
    | nil => simp only [prepareSegs]; rw [← hs, setSegs_self]
    | cons s ss => simp only [prepareSegs, ha]; rw [← hs, setSegs_self]

theorem res_countEach (l : List (Name × Val P.F)) : ∀ (f : NFile P.F IO.D) (out : Bytes),
    (countEach l (f, out)).2 =
      match setAll P Tables.t_file_header l f.header with
      | .error e => .error e
      | .ok H => .ok ((), { f with header := H }, out) := by
  induction l with
  | nil => intro f out; rfl
  | cons x r ih =>
    obtain ⟨nm, v⟩ := x
    intro f out
    unfold countEach setAll
    simp only [res_bind, res_get, res_lift]
    cases setA P Tables.t_file_header f.header nm v with
    | error e => rfl
    | ok H => simp only [res_put]; rw [ih]

theorem res_updateStep (cs : List Chunk) (nm : Name) (key : Key) (v : Nat) (f : NFile P.F IO.D)
    (out : Bytes) :
    (updateStep cs nm key v (f, out)).2 =
      match updateHeader P cs nm key v (f.header, out) with
      | .error e => .error e
      | .ok (H, out') => .ok ((), { f with header := H }, out') := by
  unfold updateStep updateHeader
  simp only [res_bind, res_get]
  cases resolve Tables.t_file_header.tab nm with
  | none => rfl
  | some n =>
    simp only
    rcases updateField P Tables.t_file_header cs 0 f.header ⟨out, out.length⟩ n key (.int v) with
      ⟨S', _ | fh⟩
    · simp only [res_bind, res_put, res_raise]
    · simp only [res_bind, res_put]

theorem res_lengthStep (cs : List Chunk) (k : SegKind) (i : Nat) (linked : Bool) (lsub ldata : Nat)
    (f : NFile P.F IO.D) (out : Bytes) :
    (lengthStep cs k i linked lsub ldata (f, out)).2 =
      match updateLengths P cs k i linked lsub ldata (f.header, out) with
      | .error e => .error e
      | .ok (H, out') => .ok ((), { f with header := H }, out') := by
  unfold lengthStep updateLengths
  cases linked with
  | false => rfl
  | true =>
    simp only [if_true, res_bind, res_updateStep]
    cases h1 : updateHeader P cs k.lenFields.1 [(i : Int)] lsub (f.header, out) with
    | error e => rfl
    | ok st => simp only [res_updateStep]

theorem res_writeEach (E : Env) (cs : List Chunk) (k : SegKind) (rest : List (Seg P.F IO.D)) :
    ∀ (done : List (Seg P.F IO.D)) (f : NFile P.F IO.D) (out : Bytes),
    f.segs k = done ++ rest →
    (writeEach E cs k done rest (f, out)).2 =
      match writeSegs P E IO cs k done.length rest (f.header, out) with
      | .error e => .error e
      | .ok (rs, H, out') => .ok ((), { setSegs f k (done ++ rs) with header := H }, out') := by
  induction rest with
  | nil =>
    intro done f out hf
    rw [List.append_nil] at hf
    simp only [writeEach, writeSegs, res_pure, List.append_nil, ← hf, setSegs_self]
  | cons s ss ih =>
    intro done f out hf
    unfold writeEach writeSegs segBytes
    simp only [res_bind, res_get, res_lift]
    cases checkUser P E IO k s with
    | error e => rfl
    | ok _ =>
      simp only
      cases writeUser P k s.user s.sub with
      | error e => rfl
      | ok sub =>
        simp only [res_put]
        cases writeStruct P k.desc sub with
        | error e => rfl
        | ok sb =>
          simp only
          cases writeData P IO s.data with
          | error e => rfl
          | ok db =>
            simp only [res_lengthStep, List.append_assoc]
            have hh : ∀ l, (setSegs f k l).header = f.header := by cases k <;> intro <;> rfl
            rw [hh]
            cases h1 : updateLengths P cs k done.length s.linked sb.length db.length
                (f.header, out ++ (sb ++ db)) with
            | error e => rfl
            | ok st =>
              obtain ⟨H, out'⟩ := st
              simp only
              rw [ih]
              · simp only [List.length_append, List.length_cons, List.length_nil, Nat.zero_add]
                cases h2 : writeSegs P E IO cs k (done.length + 1) ss (H, out') with
                | error e => rfl
                | ok r =>
                  obtain ⟨rs, H', out''⟩ := r
                  simp only [List.append_assoc, List.cons_append, List.nil_append]
                  cases k <;> rfl
              · cases k <;> simp [setSegs, NFile.segs]

theorem res_writeKind (E : Env) (cs : List Chunk) (k : SegKind) (f : NFile P.F IO.D) (out : Bytes) :
    (writeKind E cs k (f, out)).2 =
      match writeSegs P E IO cs k 0 (f.segs k) (f.header, out) with
      | .error e => .error e
      | .ok (rs, H, out') => .ok ((), { setSegs f k rs with header := H }, out') := by
  unfold writeKind
  simp only [res_bind, res_get]
  rw [res_writeEach E cs k (f.segs k) [] f out rfl]
  rfl

theorem res_dropStep (f : NFile P.F IO.D) (out : Bytes) :
    (dropStep (f, out)).2 =
      match dropOverflow P IO f.des with
      | .error e => .error e
      | .ok des => .ok ((), { f with des := des }, out) := by
  unfold dropStep
  simp only [res_bind, res_get, res_lift]
  cases dropOverflow P IO f.des <;> rfl

theorem res_headerStep (f : NFile P.F IO.D) (out : Bytes) :
    (headerStep (f, out)).2 =
      match prepareHeader P IO Tables.t_file_header fileAreas (n!"fs") "XHD".toList 0
        f.tres f.header f.des with
      | .error e => .error e
      | .ok (H, des) => .ok ((), { f with header := H, des := des }, out) := by
  unfold headerStep
  simp only [res_bind, res_get, res_lift]
  cases prepareHeader P IO Tables.t_file_header fileAreas (n!"fs") "XHD".toList 0
        f.tres f.header f.des <;> rfl

theorem res_countStep (f : NFile P.F IO.D) (out : Bytes) :
    (countStep (f, out)).2 =
      match setAll P Tables.t_file_header
        [(n!"numi", .int f.image.length), (n!"nums", .int f.graphic.length),
         (n!"numt", .int f.text.length), (n!"numdes", .int f.des.length),
         (n!"numres", .int f.res.length)] f.header with
      | .error e => .error e
      | .ok H => .ok ((), { f with header := H }, out) := by
  unfold countStep
  simp only [res_bind, res_get]
  rw [res_countEach]

theorem res_headerBytes (f : NFile P.F IO.D) (out : Bytes) :
    (headerBytes (f, out)).2 =
      match writeChunks P Tables.t_file_header f.header with
      | .error e => .error e
      | .ok cs => .ok (cs, f, chunkBytes cs) := by
  unfold headerBytes
  simp only [res_bind, res_get, res_lift]
  cases writeChunks P Tables.t_file_header f.header <;> rfl

/-- The result of `attempt` is that of `writeFile`. -/
theorem attempt_res (E : Env) (f : NFile P.F IO.D) (b : Bytes) :
    (attempt E (f, b)).2 =
      match writeFile P E IO f with
      | .error e => .error e
      | .ok r => .ok ((), r) := by
  unfold attempt writeFile
  simp only [bind, Except.bind, pure, Except.pure]
  simp only [show ∀ (α β : Type) (m : T P IO α) (k : α → T P IO β), T.bind m k = (m >>= k) from
    fun _ _ _ _ => rfl]
  simp only [res_bind, res_get, res_dropStep]
  cases dropOverflow P IO f.des with
  | error e => rfl
  | ok des0 =>
  simp only [res_headerStep]
  cases prepareHeader P IO Tables.t_file_header fileAreas (n!"fs") "XHD".toList 0 f.tres f.header des0 with
  | error e => rfl
  | ok r =>
  obtain ⟨h0, des1⟩ := r
  simp only [res_prepareKind .image (by decide), NFile.segs, setSegs]
  cases prepareSegs P IO .image 0 f.image des1 with
  | error e => rfl
  | ok r =>
  obtain ⟨im1, des2⟩ := r
  simp only [res_prepareKind .graphic (by decide), NFile.segs, setSegs]
  cases prepareSegs P IO .graphic 0 f.graphic des2 with
  | error e => rfl
  | ok r =>
  obtain ⟨gr1, des3⟩ := r
  simp only [res_prepareKind .text (by decide), NFile.segs, setSegs]
  cases prepareSegs P IO .text 0 f.text des3 with
  | error e => rfl
  | ok r =>
  obtain ⟨tx1, des4⟩ := r
  simp only [res_countStep]
  generalize setAll P Tables.t_file_header _ h0 = q
  cases q with
  | error e => rfl
  | ok h1 =>
  simp only [res_headerBytes]
  cases writeChunks P Tables.t_file_header h1 with
  | error e => rfl
  | ok cs =>
  simp only [res_updateStep]
  generalize updateHeader P cs (n!"hl") [] (chunkBytes cs).length (h1, chunkBytes cs) = q
  rcases q with _ | ⟨h2, o2⟩
  · rfl
  simp only [res_writeKind, NFile.segs, setSegs]
  rcases writeSegs P E IO cs .image 0 im1 (h2, o2) with _ | ⟨im2, h3, o3⟩
  · rfl
  simp only [res_writeKind, NFile.segs, setSegs]
  rcases writeSegs P E IO cs .graphic 0 gr1 (h3, o3) with _ | ⟨gr2, h4, o4⟩
  · rfl
  simp only [res_writeKind, NFile.segs, setSegs]
  rcases writeSegs P E IO cs .text 0 tx1 (h4, o4) with _ | ⟨tx2, h5, o5⟩
  · rfl
  simp only [res_writeKind, NFile.segs, setSegs]
  rcases writeSegs P E IO cs .des 0 des4 (h5, o5) with _ | ⟨des5, h6, o6⟩
  · rfl
  simp only [res_writeKind, NFile.segs, setSegs]
  rcases writeSegs P E IO cs .res 0 f.res (h6, o6) with _ | ⟨res2, h7, o7⟩
  · rfl
  simp only [res_updateStep]
  generalize updateHeader P cs (n!"fl") [] o7.length (h7, o7) = q
  rcases q with _ | ⟨h8, o8⟩
  · rfl
  simp only [res_dropStep]
  rcases dropOverflow P IO des5 with _ | des6
  · rfl
  · rfl

end Verif.Attempt
