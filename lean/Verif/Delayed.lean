import Verif.Causal

/-
Model of delayed reading (nitf_field.py:800-804, 835-847, 916-933): the object remembers where its
bytes are and reads them when a name that is not an ordinary attribute is looked up on it.  That
happens in `fs.nm`, in every expression `f.nm`, and, unless the class has an attribute
`tre_implementation_field` (the TRE classes do, nitf_tre.py:30), in the `hasattr` of `__setitem__`
(nitf_field.py:294).
-/

namespace Verif

variable (P : PyFloat)

/-- An object that may still have to read itself.  `pending` holds the bytes of the file from the
position of the record on, and `nitf_literal`.  Simplified: the file does not change and nobody
depends on its position. -/
structure Lazy (F : Type) where
  store : Store F
  pending : Option (Bytes × Bool)

/-- `read_from_file(fh, nitf_literal, delayed_read=True)` into a new object (nitf_field.py:927-931). -/
def delayed (lit : Bool) (b : Bytes) : Lazy P.F := ⟨Store.empty, some (b, lit)⟩

/-- The first lines of `__getattr__` (nitf_field.py:836-840).  As in `readD`, what was read before an
exception is dropped. -/
def force (d : Desc) (o : Lazy P.F) : Lazy P.F × Option Err :=
  match o.pending with
  | none => (o, none)
  | some (b, lit) =>
    match readInto P d lit o.store b with
    | .error e => (⟨o.store, none⟩, some e)
    | .ok (R, _) => (⟨R, none⟩, none)

/-- Evaluating an expression with references looks a name up.  Simplified: it does whenever the
expression has a reference at all; every shipped one evaluates its first reference first. -/
def forceIf (d : Desc) (c : Bool) (o : Lazy P.F) : Lazy P.F × Option Err :=
  if c then force P d o else (o, none)

/-- Does packing a value evaluate a size expression (nitf_field.py:483-528)? -/
def packLooks (fd : FieldDef) : Bool :=
  match fd.kind with
  | .intData _ => !(sizeRefs fd.size).isEmpty
  | _ => false

/-- Looked up before packing: `fs.nm` in `fs.nm[key] = v`, and what packing needs. -/
def setLooks1 (fi : FInfo) (key : Key) : Bool := packLooks fi.fd || !key.isEmpty

/-- Looked up after packing and before anything is stored: the condition, and the `hasattr` of
nitf_field.py:294, which is reached when the field can be set. -/
def setLooks2 (tre : Bool) (fi : FInfo) : Bool :=
  !(optRefs fi.fd.cond).isEmpty || (!tre && !(fi.fd.hardcoded || fi.fd.value.isSome))

/-- `fs.nm = v` or `fs.nm[key] = v` (`setF` with the look-ups).  `tre` says that the class has
`tre_implementation_field`. -/
def setL (d : Desc) (tre : Bool) : Nat → Lazy P.F → Nat → Key → Val P.F → Lazy P.F × Option Err
  | 0, o, _, _, _ => (o, some .recursion)
  | fuel + 1, o, n, key, v =>
    match d.tab[n]? with
    | none => (o, some .attr)
    | some fi =>
      match forceIf P d (setLooks1 fi key) o with
      | (o, some e) => (o, some e)
      | (o, none) =>
      match packKind P (evalSize P (look P d.tab o.store) fi key) fi.fd.kind v with
      | .error e => (o, some e)
      | .ok _ =>
      match forceIf P d (setLooks2 tre fi) o with
      | (o, some e) => (o, some e)
      | (o, none) =>
        match setCheck P d.tab o.store n key v with
        | .error e => (o, some e)
        | .ok (fi, v) =>
          let o : Lazy P.F := ⟨o.store.set n key ⟨.val v, none⟩, o.pending⟩
          if fi.fd.kind = .plain then (o, none)
          else match byteLen v with
            | .error e => (o, some e)
            | .ok l =>
              if fi.fd.sizeNotUpdated then
                match forceIf P d (!(sizeRefs fi.fd.size).isEmpty) o with
                | (o, some e) => (o, some e)
                | (o, none) =>
                  match evalSize P (look P d.tab o.store) fi key with
                  | .error e => (o, some e)
                  | .ok sz => if (l : Int) ≠ sz then (o, some .runtime) else (o, none)
              else
                match fi.fd.size with
                | .expr (.ref nm idx) =>
                  match idxKey key idx, resolve d.tab nm with
                  | .error e, _ => (o, some e)
                  | .ok k', none => (o, if k' = [] then none else some .attr)
                  | .ok k', some m =>
                    match d.tab[m]? with
                    | none => (o, some .attr)
                    | some fm =>
                      if fm.depth ≠ 0 ∧ k' = [] then (o, some .runtime)
                      else if fm.depth = 0 ∧ k' ≠ [] then (o, some .type)
                      else setL d tre fuel o m k'
                        (.int (if l = 0 then 0 else (l : Int) + fi.fd.sizeOffset))
                | _ => (o, some .syntax)

/-- A writer for each index of a loop, one after the other. -/
def forWriteL {F} (f : Int → Lazy F → Lazy F × Except Err (List Chunk)) :
    List Int → Lazy F → Lazy F × Except Err (List Chunk)
  | [], o => (o, .ok [])
  | i :: is, o =>
    match f i o with
    | (o, .error e) => (o, .error e)
    | (o, .ok a) =>
      match forWriteL f is o with
      | (o, .error e) => (o, .error e)
      | (o, .ok b) => (o, .ok (a ++ b))

/-- `write_to_file` (`writeD` with the look-ups): the reading happens in the middle of the writing,
at the first field or loop that evaluates an expression. -/
def writeL (d0 : Desc) : Nat → Key → Desc → Lazy P.F → Lazy P.F × Except Err (List Chunk)
  | _, _, .nil, o => (o, .ok [])
  | n, key, .field _ r, o =>
    match d0.tab[n]? with
    | none => (o, .error .attr)
    | some fi =>
      match forceIf P d0 (!fi.fd.refs.isEmpty) o with
      | (o, some e) => (o, .error e)
      | (o, none) =>
        match evalCond P (look P d0.tab o.store) fi key with
        | .error e => (o, .error e)
        | .ok false => writeL d0 (n + 1) key r o
        | .ok true =>
          match fieldBytes P (look P d0.tab o.store) o.store fi n key with
          | .error e => (o, .error e)
          | .ok b =>
            match writeL d0 (n + 1) key r o with
            | (o, .error e) => (o, .error e)
            | (o, .ok cs) => (o, .ok (⟨n, key, b⟩ :: cs))
  | n, key, .loop e body r, o =>
    match forceIf P d0 (!e.refs.isEmpty) o with
    | (o, some x) => (o, .error x)
    | (o, none) =>
      match evalShape P (look P d0.tab o.store) e key with
      | .error x => (o, .error x)
      | .ok c =>
        match forWriteL (fun i o => writeL d0 n (key ++ [i]) body o) (indices c) o with
        | (o, .error x) => (o, .error x)
        | (o, .ok cs) =>
          match writeL d0 (n + body.count) key r o with
          | (o, .error x) => (o, .error x)
          | (o, .ok cs') => (o, .ok (cs ++ cs'))

/-- What a user does with a record. -/
inductive FOp (F : Type) where
  | get (nm : Name) (key : Key)
  | set (nm : Name) (key : Key) (v : Val F)
  | raw (nm : Name) (key : Key)
  | write

/-- What the user sees. -/
inductive FRes (F : Type) where
  | val (v : Val F)
  | bytes (b : Bytes)
  | done
  | exc (e : Err)
  deriving DecidableEq

/-- One operation on an object that may still have to read itself. -/
def stepL (d : Desc) (tre : Bool) (o : Lazy P.F) : FOp P.F → Lazy P.F × FRes P.F
  | .get nm key =>
    match force P d o with
    | (o, some e) => (o, .exc e)
    | (o, none) =>
      match getAttr P d o.store nm key with
      | .error e => (o, .exc e)
      | .ok v => (o, .val v)
  | .set nm key v =>
    match resolve d.tab nm with
    | none => (o, .done)
    | some n =>
      match setL P d tre (budget d.tab) o n key v with
      | (o, some e) => (o, .exc e)
      | (o, none) => (o, .done)
  | .raw nm key =>
    -- `fs.get_raw_bytes(nm, key)` (nitf_field.py:849-854, 241-247)
    match resolve d.tab nm with
    | none => (o, .exc .attr)
    | some n =>
      match d.tab[n]? with
      | none => (o, .exc .attr)
      | some fi =>
        match (o.store n key).bind Cell.raw with
        | some b => (o, .bytes b)
        | none =>
          match forceIf P d (!fi.fd.refs.isEmpty || fi.shapes.any fun e => !e.refs.isEmpty) o with
          | (o, some e) => (o, .exc e)
          | (o, none) =>
            match fieldBytes P (look P d.tab o.store) o.store fi n key with
            | .error e => (o, .exc e)
            | .ok b => (o, .bytes b)
  | .write =>
    match writeL P d 0 [] d o with
    | (o, .error e) => (o, .exc e)
    | (o, .ok cs) => (o, .bytes (chunkBytes cs))

/-- The results of a sequence of operations. -/
def runL (d : Desc) (tre : Bool) : Lazy P.F → List (FOp P.F) → List (FRes P.F)
  | _, [] => []
  | o, op :: ops => (stepL P d tre o op).2 :: runL d tre (stepL P d tre o op).1 ops

end Verif
