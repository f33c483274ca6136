import Verif.Model.Inventory
import Verif.Spec.Urn
/-!
Specification vocabulary for inventories (C41 - C45, C47): what a dictionary is, which texts are where, which filter
decides, and what it is for a text to be under a URN.
-/
namespace Verif.Spec
open Verif.Py Verif.Model

/-- A work is a dictionary: its texts have different identifiers. -/
def DictWork (w : WorkV) : Prop := (w.texts.map TextV.id).Nodup

/-- A textgroup is a dictionary of dictionaries. -/
structure DictTg (g : TgV) : Prop where
  works : (g.works.map WorkV.id).Nodup
  texts : ∀ w ∈ g.works, DictWork w

/-- The textgroup has this text in its work `wid`. -/
def HasText (g : TgV) (wid : Str) (t : TextV) : Prop := ∃ w ∈ g.works, w.id = wid ∧ t ∈ w.texts

/-- The inventories have this text in work `wid` of textgroup `gid`. -/
def HoldsText (r : RootV) (gid wid : Str) (t : TextV) : Prop := ∃ i ∈ r.invs, ∃ g ∈ i.tgs, g.id = gid ∧ HasText g wid t

/-- The textgroup describes a text with this identifier in its work `wid`. -/
def Describes (g : TgV) (gid wid tid : Str) : Prop := g.id = gid ∧ ∃ t, HasText g wid t ∧ t.id = tid

/-- Identifiers tell the level of an object, and the identifier of a work tells its textgroup, as CTS URNs do. -/
structure Levels where
  level : Str → Nat
  owner : Str → Str

/-- A textgroup whose identifiers are as `lv` says. -/
structure FitsTg (lv : Levels) (g : TgV) : Prop extends DictTg g where
  tg : lv.level g.id = 2
  work : ∀ w ∈ g.works, lv.level w.id = 3 ∧ lv.owner w.id = g.id
  text : ∀ w ∈ g.works, ∀ t ∈ w.texts, lv.level t.id = 4

/-- A collection of inventories, all of them dictionaries with identifiers as `lv` says; a textgroup is in one
inventory. -/
structure FitsRoot (lv : Levels) (r : RootV) : Prop where
  root : lv.level r.id = 0
  invs : (r.invs.map InvV.id).Nodup
  inv : ∀ i ∈ r.invs, lv.level i.id = 1
  tgs : ((r.invs.flatMap InvV.tgs).map TgV.id).Nodup
  tg : ∀ i ∈ r.invs, ∀ g ∈ i.tgs, FitsTg lv g

/-- The inventory that the filters choose: that of the last one that says yes, or the default. -/
def Chosen (filters : List (Str × Filter)) (default : Str) (g : TgV) (path : Str) (name : Str) : Prop :=
  (∃ (pre post : List (Str × Filter)) (f : Filter), filters = pre ++ (name, f) :: post ∧ f g path = .ok true ∧ ∀ x ∈ post, x.2 g path = .ok false) ∨
  (name = default ∧ ∀ x ∈ filters, x.2 g path = .ok false)

/-- A text among objects. -/
def IsText : Obj → Bool
  | .text _ => true
  | _ => false

/-- The URN `p` lies under the URN `q`: it has every component that `q` has. -/
def UnderUrn (q p : UrnParts) : Prop :=
  p.ns = q.ns ∧ p.cts = q.cts ∧ (q.tg ≠ none → p.tg = q.tg) ∧ (q.wk ≠ none → p.wk = q.wk) ∧ (q.ver ≠ none → p.ver = q.ver)

instance (q p : UrnParts) : Decidable (UnderUrn q p) := by unfold UnderUrn; infer_instance

/-- The kind of text that a category names; other names do not restrict the search. -/
def kindNamed (c : Str) : Option Kind :=
  if c = "edition".toList then some .edition
  else if c = "translation".toList then some .translation
  else if c = "commentary".toList then some .commentary
  else none

/-- A text that a search with these filters must return: its citation scheme is known, and it satisfies every filter
given. `p` are the components of its URN. -/
structure Wanted (q : Option UrnParts) (lang category : Option Str) (t : TextV) (p : UrnParts) : Prop where
  cited : t.cite ≠ none
  urn : ∀ x, q = some x → UnderUrn x p
  lang : ∀ l, lang = some l → t.lang = l
  category : ∀ c k, category = some c → kindNamed c = some k → t.kind = k

/-- The texts of the inventories have complete URNs: `parts` are the components of each. -/
def TextsWritten (r : RootV) (parts : TextV → UrnParts) : Prop :=
  ∀ t ∈ rootTexts r, (parts t).WF ∧ t.id = (parts t).write ∧ Urn.parse t.id = .ok t.urn ∧ (parts t).ver ≠ none ∧ (parts t).ref = none

/-- The textgroup and the work that hold a text have the URN of the text cut after the textgroup and after the work. -/
def HoldersWritten (r : RootV) (parts : TextV → UrnParts) : Prop :=
  ∀ i ∈ r.invs, ∀ g ∈ i.tgs, ∀ w ∈ g.works, ∀ t ∈ w.texts,
    g.id = UrnParts.write { parts t with wk := none, ver := none, ref := none } ∧ w.id = UrnParts.write { parts t with ver := none, ref := none }

/-- `t` describes the same text as `x`. -/
structure SameText (x t : TextV) : Prop where
  id : t.id = x.id
  kind : t.kind = x.kind
  cite : t.cite = x.cite
  lang : x.kind ≠ .edition → t.lang = x.lang

end Verif.Spec
