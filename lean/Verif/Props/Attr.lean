import Verif.Props.Fields
import Verif.Enum
import Verif.Tables

/- C12 for attributes: a name stands for the field that carries it. -/

namespace Verif

variable (P : PyFloat)

/-- Field `n` is the one that the name stands for: it carries the name, and no field after it does. -/
def Carries (d : Desc) (nm : Name) (n : Nat) (fi : FInfo) : Prop :=
  d.tab[n]? = some fi ∧ fi.fd.name = some nm ∧
    ∀ m fm, n < m → d.tab[m]? = some fm → fm.fd.name ≠ some nm

theorem Carries.resolve {d : Desc} {nm : Name} {n : Nat} {fi : FInfo} (h : Carries d nm n fi) :
    resolve d.tab nm = some n := by
  unfold Verif.resolve
  rw [resolveFrom_last]
  exact ⟨Nat.zero_le _, ⟨fi, h.1, h.2.1⟩, fun m fm hm h' => h.2.2 m fm (by omega) h'⟩

/-- C12, attributes.  Reading or assigning `record.name` (with an index for a field in loops) reads
or assigns the field with that name. -/
theorem C12_attribute {d : Desc} {nm : Name} {n : Nat} {fi : FInfo} (h : Carries d nm n fi)
    (S : Store P.F) (key : Key) (v : Val P.F) :
    getAttr P d S nm key = getItem P d.tab S n key ∧
      setAttr P d S nm key v = setItem P d.tab S n key v := by
  unfold getAttr setAttr
  rw [h.resolve]
  exact ⟨rfl, rfl⟩

/-- C12, attributes.  A name no field has cannot be read (AttributeError), and assigning to it does
not change the record. -/
theorem C12_no_attribute {d : Desc} {nm : Name}
    (h : ∀ (n : Nat) (fi : FInfo), d.tab[n]? = some fi → fi.fd.name ≠ some nm) (S : Store P.F) (key : Key)
    (v : Val P.F) :
    getAttr P d S nm key = .error .attr ∧ setAttr P d S nm key v = (S, none) := by
  have : resolve d.tab nm = none := by
    cases hr : resolve d.tab nm with
    | none => rfl
    | some n =>
      obtain ⟨_, ⟨fi, h1, h2⟩, _⟩ := (resolveFrom_last nm d.tab 0 n).mp hr
      exact absurd h2 (h _ fi h1)
  unfold getAttr setAttr
  rw [this]
  exact ⟨rfl, rfl⟩

/-- C12, attributes.  After `record.a = v` succeeded for a field without a maintained length,
`record.a` is `v` as the type of the field, and the stored value of every other field is what it
was. -/
theorem C12_attributes {d : Desc} (hd : d.causal = true) {S S' : Store P.F} {a : Name} {n : Nat}
    {fi : FInfo} (h : Carries d a n fi) (hk : fi.fd.kind = .plain ∨ fi.fd.sizeNotUpdated = true)
    {key : Key} {v : Val P.F} (hs : setAttr P d S a key v = (S', none)) :
    (∃ v', packKind P (evalSize P (look P d.tab S) fi key) fi.fd.kind v = .ok v' ∧
      getAttr P d S' a key = asFieldType P fi (evalSize P (look P d.tab S) fi key) v') ∧
    (∀ k, k ≠ key → getAttr P d S' a k = getAttr P d S a k) ∧
    (∀ b m fm, Carries d b m fm → b ≠ a → ∀ k, S' m k = S m k) ∧
    ∀ b m fm, Carries d b m fm → m < n → ∀ k, getAttr P d S' b k = getAttr P d S b k := by
  rw [(C12_attribute P h S key v).2] at hs
  obtain ⟨⟨v', h1, h2⟩, h3, h4, h5⟩ := C12_set_get P hd h.1 hk hs
  refine ⟨⟨v', h1, ?_⟩, ?_, ?_, ?_⟩
  · rw [(C12_attribute P h S' key v).1, h2]
  · intro k hne
    rw [(C12_attribute P h S' k v).1, (C12_attribute P h S k v).1, h5 k hne]
  · intro b m fm hb hne k
    refine h3 m k ?_
    rintro ⟨rfl, _⟩
    have : fm = fi := by
      have := hb.1.symm.trans h.1
      injection this
    subst this
    exact hne (Option.some.inj (hb.2.1.symm.trans h.2.1))
  · intro b m fm hb hlt k
    rw [(C12_attribute P hb S' k v).1, (C12_attribute P hb S k v).1, h4 m k hlt]

/-- `iid1` of an image subheader. -/
example : ∃ fi, Carries Tables.t_image_subheader (n!"iid1") 1 fi ∧ fi.fd.kind = .plain ∧
    setAttr P0 Tables.t_image_subheader Store.empty (n!"iid1") [] (.str "One".toList) =
      (Store.empty.set 1 [] ⟨.val (.str "One".toList), none⟩, none) := by
  have hl : Tables.t_image_subheader.tab.length = 62 := by decide +kernel
  have key : ∀ m < 62, 1 < m → (Tables.t_image_subheader.tab[m]?).bind (·.fd.name) ≠
      some (n!"iid1") := by decide +kernel
  obtain ⟨fi, h1, h2⟩ : ∃ fi, Tables.t_image_subheader.tab[1]? = some fi ∧
      (fi.fd.name = some (n!"iid1") ∧ fi.fd.kind = .plain) := ⟨_, rfl, rfl, rfl⟩
  refine ⟨fi, ⟨h1, h2.1, ?_⟩, h2.2, rfl⟩
  intro m fm hm h
  have := key m (by rw [← hl]; exact (List.getElem?_eq_some_iff.mp h).1) hm
  rw [h] at this
  exact this

end Verif
