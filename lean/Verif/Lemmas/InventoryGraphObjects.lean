import Verif.Lemmas.InventoryGraph
/-!
The objects that parsing an inventory into the graph makes, and what an export reads of them (C86).
-/
namespace Verif.Lemmas
open Verif.Py Verif.Model Verif.Spec Verif.Props

/-! ### The objects do not depend on the graph -/

/-- A text without what the graph holds. -/
def bareText (t : XText) : GText := ⟨t.id, t.kind, t.cite⟩
/-- A work without what the graph holds. -/
def bareWork (w : XWork) : GWork := ⟨w.id, w.texts.map bareText⟩
/-- A textgroup without what the graph holds. -/
def bareGroup (x : XGroup) : GGroup := ⟨x.id, x.works.map bareWork⟩
/-- An inventory without what the graph holds. -/
def bareInv (i : XInv) : GInv := ⟨i.id, i.groups.map bareGroup⟩

/-- The object of an outcome. -/
def objectIn {α : Type} : Except PyErr (α × Graph) → Except PyErr α
  | .ok (x, _) => .ok x
  | .error e => .error e

/-- The error of an outcome. -/
def errorIn {α : Type} : Except PyErr α → Option PyErr
  | .ok _ => none
  | .error e => some e

theorem errorIn_step (nsmap : List (Str × Str)) (ob : Str → Objectified) (n n2 : Term) (g g2 : Graph) (m : Node) :
    errorIn (structuredStep nsmap ob n g m) = errorIn (structuredStep nsmap ob n2 g2 m) := by
  unfold structuredStep
  split
  · split <;> rfl
  · rfl

theorem errorIn_loop (nsmap : List (Str × Str)) (ob : Str → Objectified) (n n2 : Term) (ms : List Node) (g g2 : Graph) :
    errorIn (structuredLoop nsmap ob n g ms) = errorIn (structuredLoop nsmap ob n2 g2 ms) := by
  induction ms generalizing g g2 with
  | nil => rfl
  | cons m r ih =>
    have h := errorIn_step nsmap ob n n2 g g2 m
    rw [structuredLoop, structuredLoop]
    cases h1 : structuredStep nsmap ob n g m with
    | error e =>
      cases h2 : structuredStep nsmap ob n2 g2 m with
      | error e2 => rw [h1, h2] at h; exact h
      | ok y => rw [h1, h2] at h; cases h
    | ok x =>
      cases h2 : structuredStep nsmap ob n2 g2 m with
      | error e2 => rw [h1, h2] at h; cases h
      | ok y => exact ih x y

theorem errorIn_structured (nsmap : List (Str × Str)) (ob : Str → Objectified) (i i2 : Str) (n : Node) (g g2 : Graph) :
    errorIn (parseStructured nsmap ob i g n) = errorIn (parseStructured nsmap ob i2 g2 n) := errorIn_loop _ _ _ _ _ _ _

theorem addKeyed_map {α β : Type} {key : α → Str} {key' : β → Str} {f : β → α} (h : ∀ y, key (f y) = key' y) (l : List β) (y : β) :
    addKeyed key (l.map f) (f y) = (addKeyed key' l y).map f := by
  have : (l.map f).map key = l.map key' := by rw [List.map_map]; exact List.map_congr_left fun x _ => h x
  unfold addKeyed
  rw [this, h]
  split <;> simp

theorem into_object {α β : Type} {key : α → Str} {key' : β → Str} {bare : β → α} (hk : ∀ y, key (bare y) = key' y)
    {f : Graph → Node → Except PyErr (α × Graph)} {f' : Graph → Node → Except PyErr (β × Graph)} {ns : List Node}
    (hf : ∀ n ∈ ns, ∀ g g2, objectIn (f g n) = (objectIn (f' g2 n)).map bare) (l : List β) (g g2 : Graph) :
    objectIn (parseIntoS key f (l.map bare) g ns) = (objectIn (parseIntoS key' f' l g2 ns)).map (List.map bare) := by
  induction ns generalizing l g g2 with
  | nil => rfl
  | cons n r ih =>
    have h := hf n (by simp) g g2
    rw [parseIntoS, parseIntoS]
    cases h1 : f g n with
    | error e =>
      cases h2 : f' g2 n with
      | error e2 => rw [h1, h2] at h; cases h; rfl
      | ok y => obtain ⟨y, g4⟩ := y; rw [h1, h2] at h; cases h
    | ok x =>
      obtain ⟨x, g3⟩ := x
      cases h2 : f' g2 n with
      | error e2 => rw [h1, h2] at h; cases h
      | ok y =>
        obtain ⟨y, g4⟩ := y
        rw [h1, h2] at h
        have hx : x = bare y := by simpa [objectIn, Except.map] using h
        subst hx
        dsimp only
        rw [addKeyed_map hk]
        exact ih (fun m hm => hf m (by simp [hm])) _ _ _

theorem text_object (order : Order) (nsmap : List (Str × Str)) (ob : Str → Objectified) (k : Kind) (p lang : Option Str) (g g2 : Graph) (n : Node) :
    objectIn (parseTextG order nsmap ob k p g n) = (objectIn (parseTextS nsmap ob k lang g2 n)).map bareText := by
  unfold parseTextG parseTextS parseText
  cases parseId n with
  | error e => rfl
  | ok id =>
    dsimp only
    generalize readAbout id _ n = g3
    have h := errorIn_structured nsmap ob id id n g3 g2
    cases h1 : parseStructured nsmap ob id g3 n with
    | error e =>
      cases h2 : parseStructured nsmap ob id g2 n with
      | error e2 => rw [h1, h2] at h; cases h; rfl
      | ok y => rw [h1, h2] at h; cases h
    | ok x =>
      cases h2 : parseStructured nsmap ob id g2 n with
      | error e2 => rw [h1, h2] at h; cases h
      | ok y => rfl

theorem texts_object (order : Order) (nsmap : List (Str × Str)) (ob : Str → Objectified) (w lang : Str) (g g2 : Graph) (n : Node) :
    objectIn (parseTextsG order nsmap ob w g n) = (objectIn (parseTextsS nsmap ob lang g2 n)).map (List.map bareText) := by
  unfold parseTextsG parseTextsS
  have step : ∀ k ns l g g2, objectIn (parseIntoS GText.id (parseTextG order nsmap ob k (some w)) (List.map bareText l) g ns) =
      (objectIn (parseIntoS XText.id (parseTextS nsmap ob k (some lang)) l g2 ns)).map (List.map bareText) := fun k ns l g g2 =>
    into_object (fun _ => rfl) (fun m _ g g2 => text_object order nsmap ob k _ _ g g2 m) l g g2
  have h := step .edition (namedKids ['t', 'i', ':', 'e', 'd', 'i', 't', 'i', 'o', 'n'] n) [] g g2
  rw [List.map_nil] at h
  cases h1 : parseIntoS GText.id (parseTextG order nsmap ob .edition (some w)) [] g (namedKids ['t', 'i', ':', 'e', 'd', 'i', 't', 'i', 'o', 'n'] n) with
  | error e =>
    cases h2 : parseIntoS XText.id (parseTextS nsmap ob .edition (some lang)) [] g2 (namedKids ['t', 'i', ':', 'e', 'd', 'i', 't', 'i', 'o', 'n'] n) with
    | error e2 => rw [h1, h2] at h; cases h; rfl
    | ok y => obtain ⟨y, g4⟩ := y; rw [h1, h2] at h; cases h
  | ok x =>
    obtain ⟨x, g3⟩ := x
    cases h2 : parseIntoS XText.id (parseTextS nsmap ob .edition (some lang)) [] g2 (namedKids ['t', 'i', ':', 'e', 'd', 'i', 't', 'i', 'o', 'n'] n) with
    | error e2 => rw [h1, h2] at h; cases h
    | ok y =>
      obtain ⟨y, g4⟩ := y
      rw [h1, h2] at h
      have hx : x = y.map bareText := by simpa [objectIn, Except.map] using h
      subst hx
      dsimp only
      clear h h1 h2
      have h := step .translation (namedKids ['t', 'i', ':', 't', 'r', 'a', 'n', 's', 'l', 'a', 't', 'i', 'o', 'n'] n) y g3 g4
      cases h1 : parseIntoS GText.id (parseTextG order nsmap ob .translation (some w)) (y.map bareText) g3 (namedKids ['t', 'i', ':', 't', 'r', 'a', 'n', 's', 'l', 'a', 't', 'i', 'o', 'n'] n) with
      | error e =>
        cases h2 : parseIntoS XText.id (parseTextS nsmap ob .translation (some lang)) y g4 (namedKids ['t', 'i', ':', 't', 'r', 'a', 'n', 's', 'l', 'a', 't', 'i', 'o', 'n'] n) with
        | error e2 => rw [h1, h2] at h; cases h; rfl
        | ok z => obtain ⟨z, g5⟩ := z; rw [h1, h2] at h; cases h
      | ok x =>
        obtain ⟨x, g5⟩ := x
        cases h2 : parseIntoS XText.id (parseTextS nsmap ob .translation (some lang)) y g4 (namedKids ['t', 'i', ':', 't', 'r', 'a', 'n', 's', 'l', 'a', 't', 'i', 'o', 'n'] n) with
        | error e2 => rw [h1, h2] at h; cases h
        | ok z =>
          obtain ⟨z, g6⟩ := z
          rw [h1, h2] at h
          have hx : x = z.map bareText := by simpa [objectIn, Except.map] using h
          subst hx
          exact step .commentary _ _ _ _

theorem work_object (order : Order) (nsmap : List (Str × Str)) (ob : Str → Objectified) (p : Option Str) (g g2 : Graph) (n : Node) :
    objectIn (parseWorkG order nsmap ob p g n) = (objectIn (parseWorkS nsmap ob g2 n)).map bareWork := by
  unfold parseWorkG parseWorkS
  cases parseId n with
  | error e => rfl
  | ok id =>
    dsimp only
    generalize readProperty .work _ _ id _ n = g3
    generalize valueText (n.get ['x', 'm', 'l', ':', 'l', 'a', 'n', 'g']) = lang
    have h := texts_object order nsmap ob id lang g3 g2 n
    cases h1 : parseTextsG order nsmap ob id g3 n with
    | error e =>
      cases h2 : parseTextsS nsmap ob lang g2 n with
      | error e2 => rw [h1, h2] at h; cases h; rfl
      | ok y => obtain ⟨y, g4⟩ := y; rw [h1, h2] at h; cases h
    | ok x =>
      obtain ⟨x, g5⟩ := x
      cases h2 : parseTextsS nsmap ob lang g2 n with
      | error e2 => rw [h1, h2] at h; cases h
      | ok y =>
        obtain ⟨y, g6⟩ := y
        rw [h1, h2] at h
        have hx : x = y.map bareText := by simpa [objectIn, Except.map] using h
        subst hx
        dsimp only
        have h := errorIn_structured nsmap ob id id n g5 g6
        cases h1 : parseStructured nsmap ob id g5 n with
        | error e =>
          cases h2 : parseStructured nsmap ob id g6 n with
          | error e2 => rw [h1, h2] at h; cases h; rfl
          | ok y => rw [h1, h2] at h; cases h
        | ok x =>
          cases h2 : parseStructured nsmap ob id g6 n with
          | error e2 => rw [h1, h2] at h; cases h
          | ok y => rfl

theorem group_object (order : Order) (nsmap : List (Str × Str)) (ob : Str → Objectified) (p : Option Str) (g g2 : Graph) (n : Node) :
    objectIn (parseGroupG order nsmap ob p g n) = (objectIn (parseGroupS nsmap ob g2 n)).map bareGroup := by
  unfold parseGroupG parseGroupS
  cases parseId n with
  | error e => rfl
  | ok id =>
    dsimp only
    generalize readProperty .textgroup _ _ id _ n = g3
    have h := into_object (key := GWork.id) (key' := XWork.id) (bare := bareWork) (fun _ => rfl) (ns := namedKids ['t', 'i', ':', 'w', 'o', 'r', 'k'] n)
      (fun m _ g g2 => work_object order nsmap ob (some id) g g2 m) [] g3 g2
    rw [List.map_nil] at h
    cases h1 : parseIntoS GWork.id (parseWorkG order nsmap ob (some id)) [] g3 (namedKids ['t', 'i', ':', 'w', 'o', 'r', 'k'] n) with
    | error e =>
      cases h2 : parseIntoS XWork.id (parseWorkS nsmap ob) [] g2 (namedKids ['t', 'i', ':', 'w', 'o', 'r', 'k'] n) with
      | error e2 => rw [h1, h2] at h; cases h; rfl
      | ok y => obtain ⟨y, g4⟩ := y; rw [h1, h2] at h; cases h
    | ok x =>
      obtain ⟨x, g5⟩ := x
      cases h2 : parseIntoS XWork.id (parseWorkS nsmap ob) [] g2 (namedKids ['t', 'i', ':', 'w', 'o', 'r', 'k'] n) with
      | error e2 => rw [h1, h2] at h; cases h
      | ok y =>
        obtain ⟨y, g6⟩ := y
        rw [h1, h2] at h
        have hx : x = y.map bareWork := by simpa [objectIn, Except.map] using h
        subst hx
        dsimp only
        have h := errorIn_structured nsmap ob id id n g5 g6
        cases h1 : parseStructured nsmap ob id g5 n with
        | error e =>
          cases h2 : parseStructured nsmap ob id g6 n with
          | error e2 => rw [h1, h2] at h; cases h; rfl
          | ok y => rw [h1, h2] at h; cases h
        | ok x =>
          cases h2 : parseStructured nsmap ob id g6 n with
          | error e2 => rw [h1, h2] at h; cases h
          | ok y => rfl

theorem inv_object (order : Order) (nsmap : List (Str × Str)) (ob : Str → Objectified) (g g2 : Graph) (n : Node) :
    objectIn (parseInvG order nsmap ob g n) = (objectIn (parseInvS nsmap ob g2 n)).map bareInv := by
  unfold parseInvG parseInvS
  cases n.allNodes.filter fun c => c.tag = ['t', 'i', ':', 'T', 'e', 'x', 't', 'I', 'n', 'v', 'e', 'n', 't', 'o', 'r', 'y'] with
  | nil => rfl
  | cons t r =>
    dsimp only
    generalize newObject g _ _ _ = g3
    generalize (t.get ['t', 'i', 'i', 'd']).getD [] = id
    generalize (n.allNodes.filter fun c => c.tag = ['t', 'i', ':', 't', 'e', 'x', 't', 'g', 'r', 'o', 'u', 'p']) = ns
    have h := into_object (key := GGroup.id) (key' := XGroup.id) (bare := bareGroup) (fun _ => rfl) (ns := ns)
      (fun m _ g g2 => group_object order nsmap ob (some id) g g2 m) [] g3 g2
    rw [List.map_nil] at h
    cases h1 : parseIntoS GGroup.id (parseGroupG order nsmap ob (some id)) [] g3 ns with
    | error e =>
      cases h2 : parseIntoS XGroup.id (parseGroupS nsmap ob) [] g2 ns with
      | error e2 => rw [h1, h2] at h; cases h; rfl
      | ok y => obtain ⟨y, g4⟩ := y; rw [h1, h2] at h; cases h
    | ok x =>
      obtain ⟨x, g5⟩ := x
      cases h2 : parseIntoS XGroup.id (parseGroupS nsmap ob) [] g2 ns with
      | error e2 => rw [h1, h2] at h; cases h
      | ok y =>
        obtain ⟨y, g6⟩ := y
        rw [h1, h2] at h
        have hx : x = y.map bareGroup := by simpa [objectIn, Except.map] using h
        subst hx
        rfl

/-! ### No statement stands twice -/

theorem nodup_setValue {g : Graph} {t : Triple} (h : g.Nodup) : (g.setValue t).Nodup := nodup_insert (h.filter _)

theorem nodup_newObject {g : Graph} {id ty md : Str} (h : g.Nodup) : (newObject g id ty md).Nodup := nodup_setValue (nodup_setValue h)

theorem nodup_newParent {g : Graph} {id : Str} {p : Option Str} (h : g.Nodup) : (newParent g id p).Nodup := by
  cases p
  · exact h
  · exact nodup_insert h

theorem nodup_setCts {g : Graph} {n : Term} {cls : CtsClass} {prop : Str} {v : CtsValue} {l : Option Str} (h : g.Nodup) :
    (setCtsProperty g n cls prop v l).Nodup := by
  unfold setCtsProperty setLabel metaAdd
  dsimp only
  split
  · exact nodup_insert (nodup_insert (nodup_insert h))
  · exact nodup_insert h

theorem nodup_fold {β : Type} {f : Graph → β → Graph} (hf : ∀ g b, g.Nodup → (f g b).Nodup) (l : List β) {g : Graph} (h : g.Nodup) : (l.foldl f g).Nodup := by
  induction l generalizing g with
  | nil => exact h
  | cons b r ih => exact ih (hf g b h)

theorem nodup_readProperty {cls : CtsClass} {tag prop id : Str} {n : Node} {g : Graph} (h : g.Nodup) : (readProperty cls tag prop id g n).Nodup := by
  refine nodup_fold (fun g c hg => ?_) _ h
  split
  · exact nodup_setCts hg
  · exact hg

theorem nodup_readAbout {id : Str} {n : Node} {g : Graph} (h : g.Nodup) : (readAbout id g n).Nodup :=
  nodup_fold (fun _ _ hg => nodup_insert hg) _ h

theorem nodup_readTextLang {order : Order} {k : Kind} {p : Option Str} {id : Str} {g : Graph} {n : Node} (h : g.Nodup) : (readTextLang order k p id g n).Nodup := by
  have h1 : (newTextLang order g (.uri id) (p.map .uri) none).Nodup := by
    unfold newTextLang
    cases p
    · exact h
    · exact nodup_setValue h
  unfold readTextLang
  dsimp only
  split
  · exact h1
  · split
    · exact nodup_setValue h1
    · exact h1

theorem nodup_structuredLoop {nsmap : List (Str × Str)} {ob : Str → Objectified} {n : Term} {ms : List Node} {g g' : Graph} (hg : g.Nodup)
    (h : structuredLoop nsmap ob n g ms = .ok g') : g'.Nodup := by
  induction ms generalizing g with
  | nil => cases h; exact hg
  | cons m r ih =>
    rw [structuredLoop] at h
    cases h1 : structuredStep nsmap ob n g m with
    | error e => rw [h1] at h; cases h
    | ok g1 =>
      rw [h1] at h
      refine ih ?_ h
      unfold structuredStep at h1
      split at h1
      · split at h1
        · cases h1; exact nodup_insert hg
        · cases h1
      · cases h1; exact hg

/-- Reading keeps a graph without repetitions. -/
def KeepsNodup (g g' : Graph) (_ : List Thing) : Prop := g.Nodup → g'.Nodup

theorem nodup_into {α : Type} {key : α → Str} {f : Graph → Node → Except PyErr (α × Graph)} {ns : List Node}
    (hf : ∀ n ∈ ns, ∀ g x g1, f g n = .ok (x, g1) → g.Nodup → g1.Nodup) {l l' : List α} {g g' : Graph} (h : parseIntoS key f l g ns = .ok (l', g')) (hg : g.Nodup) :
    g'.Nodup :=
  into_rel KeepsNodup (fun _ => []) (fun _ h => h) (fun _ _ _ _ _ h1 h2 h => h2 (h1 h)) hf h hg

theorem nodup_text {order : Order} {nsmap ob} {k : Kind} {p : Option Str} {n : Node} {g : Graph} {t : GText} {g' : Graph}
    (h : parseTextG order nsmap ob k p g n = .ok (t, g')) (hg : g.Nodup) : g'.Nodup := by
  unfold parseTextG at h
  cases hid : parseId n with
  | error e => rw [hid] at h; cases h
  | ok id =>
    rw [hid] at h
    dsimp only at h
    split at h
    · cases h
    · rename_i g1 h1
      cases h
      exact nodup_structuredLoop (nodup_readAbout (nodup_readProperty (nodup_readProperty (nodup_readTextLang (nodup_newParent (nodup_newObject hg)))))) h1

theorem nodup_texts {order : Order} {nsmap ob} {w : Str} {n : Node} {g : Graph} {l : List GText} {g' : Graph}
    (h : parseTextsG order nsmap ob w g n = .ok (l, g')) (hg : g.Nodup) : g'.Nodup := by
  unfold parseTextsG at h
  split at h
  · cases h
  · rename_i l1 g1 h1
    split at h
    · cases h
    · rename_i l2 g2 h2
      exact nodup_into (fun _ _ _ _ _ h => nodup_text h) h (nodup_into (fun _ _ _ _ _ h => nodup_text h) h2 (nodup_into (fun _ _ _ _ _ h => nodup_text h) h1 hg))

theorem nodup_work {order : Order} {nsmap ob} {p : Option Str} {n : Node} {g : Graph} {t : GWork} {g' : Graph}
    (h : parseWorkG order nsmap ob p g n = .ok (t, g')) (hg : g.Nodup) : g'.Nodup := by
  unfold parseWorkG at h
  cases hid : parseId n with
  | error e => rw [hid] at h; cases h
  | ok id =>
    rw [hid] at h
    dsimp only at h
    split at h
    · cases h
    · rename_i l1 g1 h1
      split at h
      · cases h
      · rename_i g2 h2
        cases h
        refine nodup_structuredLoop (nodup_texts h1 (nodup_readProperty ?_)) h2
        split
        · exact nodup_setValue (nodup_newParent (nodup_newObject hg))
        · exact nodup_newParent (nodup_newObject hg)

theorem nodup_group {order : Order} {nsmap ob} {p : Option Str} {n : Node} {g : Graph} {t : GGroup} {g' : Graph}
    (h : parseGroupG order nsmap ob p g n = .ok (t, g')) (hg : g.Nodup) : g'.Nodup := by
  unfold parseGroupG at h
  cases hid : parseId n with
  | error e => rw [hid] at h; cases h
  | ok id =>
    rw [hid] at h
    dsimp only at h
    split at h
    · cases h
    · rename_i l1 g1 h1
      split at h
      · cases h
      · rename_i g2 h2
        cases h
        exact nodup_structuredLoop (nodup_into (fun _ _ _ _ _ h => nodup_work h) h1 (nodup_readProperty (nodup_newParent (nodup_newObject hg)))) h2

theorem nodup_inv {order : Order} {nsmap ob} {n : Node} {g : Graph} {t : GInv} {g' : Graph}
    (h : parseInvG order nsmap ob g n = .ok (t, g')) (hg : g.Nodup) : g'.Nodup := by
  unfold parseInvG at h
  split at h
  · cases h
  · dsimp only at h
    split at h
    · cases h
    · rename_i l1 g1 h1
      cases h
      exact nodup_into (fun _ _ _ _ _ h => nodup_group h) h1 (nodup_newObject hg)

/-! ### The values that are read -/

theorem nodup_addOnce {α : Type} [DecidableEq α] {l : List α} {x : α} (h : l.Nodup) : (addOnce l x).Nodup := by
  unfold addOnce
  split
  · exact h
  · rename_i hx
    rw [List.nodup_append]
    refine ⟨h, by simp, fun a ha b hb => ?_⟩
    rw [List.mem_singleton] at hb
    subst hb
    rintro rfl
    exact hx ha

theorem mem_addOnce {α : Type} [DecidableEq α] {l : List α} {x y : α} : y ∈ addOnce l x ↔ y ∈ l ∨ y = x := by
  unfold addOnce
  split
  · rename_i h
    refine ⟨Or.inl, ?_⟩
    rintro (h1 | rfl)
    · exact h1
    · exact h
  · simp

theorem parseLits_fold (l : List Node) (acc : List Lit) (h : acc.Nodup) : (l.foldl parseLit acc).Nodup ∧
    ∀ x, x ∈ l.foldl parseLit acc ↔ x ∈ acc ∨ ∃ c ∈ l, ∃ lg, c.get ['x', 'm', 'l', ':', 'l', 'a', 'n', 'g'] = some lg ∧ x = (some lg, literalText c) := by
  induction l generalizing acc with
  | nil => simpa using h
  | cons c r ih =>
    have hn : (parseLit acc c).Nodup := by
      unfold parseLit
      split
      · exact nodup_addOnce h
      · exact h
    have hm : ∀ x, x ∈ parseLit acc c ↔ x ∈ acc ∨ ∃ lg, c.get ['x', 'm', 'l', ':', 'l', 'a', 'n', 'g'] = some lg ∧ x = (some lg, literalText c) := by
      intro x
      unfold parseLit
      split
      · rename_i lg hl
        rw [mem_addOnce, hl]
        simp
      · rename_i hl
        rw [hl]
        simp
    obtain ⟨a, b⟩ := ih _ hn
    refine ⟨a, fun x => (b x).trans ?_⟩
    rw [hm]
    simp only [List.mem_cons, exists_eq_or_imp]
    exact or_assoc

theorem parseLits_nodup (tag : Str) (n : Node) : (parseLits tag n).Nodup := (parseLits_fold _ [] List.nodup_nil).1

theorem mem_parseLits {tag : Str} {n : Node} {x : Lit} :
    x ∈ parseLits tag n ↔ ∃ c ∈ namedKids tag n, ∃ lg, c.get ['x', 'm', 'l', ':', 'l', 'a', 'n', 'g'] = some lg ∧ x = (some lg, literalText c) := by
  refine ((parseLits_fold (namedKids tag n) [] List.nodup_nil).2 x).trans ?_
  simp

theorem about_fold (l : List Node) (acc : List Str) (h : acc.Nodup) : (l.foldl (fun l c => addOnce l (valueText (c.get ['u', 'r', 'n']))) acc).Nodup ∧
    ∀ x, x ∈ l.foldl (fun l c => addOnce l (valueText (c.get ['u', 'r', 'n']))) acc ↔ x ∈ acc ∨ ∃ c ∈ l, x = valueText (c.get ['u', 'r', 'n']) := by
  induction l generalizing acc with
  | nil => simpa using h
  | cons c r ih =>
    obtain ⟨a, b⟩ := ih _ (nodup_addOnce (x := valueText (c.get ['u', 'r', 'n'])) h)
    refine ⟨a, fun x => (b x).trans ?_⟩
    rw [mem_addOnce]
    simp only [List.mem_cons, exists_eq_or_imp]
    exact or_assoc

theorem objects_nodup {order : Order} (ho : Rearranges order) {g : Graph} (hg : g.Nodup) (n p : Term) : (g.objects order n p).Nodup := by
  unfold Graph.objects
  have h : ((order g).filter fun t => t.matches (some n) (some p) none).Nodup := ((ho g).nodup_iff.2 hg).filter _
  rw [List.Nodup, List.pairwise_map]
  refine List.Pairwise.imp_of_mem (fun {a b} ha hb hab => ?_) h
  intro e
  apply hab
  rw [List.mem_filter] at ha hb
  have h1 := ha.2
  have h2 := hb.2
  simp [Triple.matches] at h1 h2
  obtain ⟨a1, a2, a3⟩ := a
  obtain ⟨b1, b2, b3⟩ := b
  simp_all

/-- Texts in languages, as they are read and as they stand in the graph. -/
theorem lits_perm {order : Order} (ho : Rearranges order) {g : Graph} (hg : g.Nodup) {node p : Term} {tag : Str} {n : Node}
    (h : ∀ o, (⟨node, p, o⟩ : Triple) ∈ g ↔ GivesFrom tag n o) : ((g.objects order node p).map litOf).Perm (parseLits tag n) := by
  have hm : ∀ o, o ∈ g.objects order node p ↔ GivesFrom tag n o := fun o => (mem_objects ho).trans (h o)
  refine (List.perm_ext_iff_of_nodup ?_ (parseLits_nodup tag n)).2 fun x => ?_
  · rw [List.Nodup, List.pairwise_map]
    refine List.Pairwise.imp_of_mem (fun {a b} ha hb hab => ?_) (objects_nodup ho hg node p)
    obtain ⟨c, _, l, _, rfl⟩ := (hm a).1 ha
    obtain ⟨d, _, k, _, rfl⟩ := (hm b).1 hb
    intro e
    apply hab
    simp [litOf] at e
    rw [e.1, e.2]
  · rw [List.mem_map, mem_parseLits]
    constructor
    · rintro ⟨o, ha, rfl⟩
      obtain ⟨c, hc, l, hl, rfl⟩ := (hm o).1 ha
      exact ⟨c, hc, l, hl, by rw [literalText_label]; rfl⟩
    · rintro ⟨c, hc, l, hl, rfl⟩
      exact ⟨_, (hm _).2 ⟨c, hc, l, hl, rfl⟩, by rw [literalText_label]; rfl⟩

/-! ### The objects of a document whose identifiers differ -/

theorem into_all {α : Type} {key : α → Str} {f : Graph → Node → Except PyErr (α × Graph)} {t : Node → α} {ns : List Node}
    (hf : ∀ n ∈ ns, ∀ g x g1, f g n = .ok (x, g1) → x = t n) {l l' : List α} {g g' : Graph} (h : parseIntoS key f l g ns = .ok (l', g'))
    (hn : ((l ++ ns.map t).map key).Nodup) : l' = l ++ ns.map t := by
  induction ns generalizing l g with
  | nil => cases h; simp
  | cons n r ih =>
    rw [parseIntoS] at h
    cases h1 : f g n with
    | error e => rw [h1] at h; cases h
    | ok y =>
      obtain ⟨x, g1⟩ := y
      rw [h1] at h
      dsimp only at h
      have hx := hf n (by simp) _ _ _ h1
      subst hx
      have hx : key (t n) ∉ l.map key := by
        intro hm
        simp only [List.map_append, List.map_cons] at hn
        rw [List.nodup_append] at hn
        exact hn.2.2 _ hm _ (by simp) rfl
      rw [addKeyed, if_neg hx] at h
      rw [ih (fun m hm => hf m (by simp [hm])) h (by simpa using hn)]
      simp

/-- The text that an element gives. -/
def textFrom (k : Kind) (lang : Option Str) (n : Node) : XText :=
  { id := urnOf n, kind := k,
    lang :=
      if k = .edition then valueText lang
      else match n.get ['x', 'm', 'l', ':', 'l', 'a', 'n', 'g'] with
        | some l => l
        | none => valueText lang,
    labels := parseLits ['t', 'i', ':', 'l', 'a', 'b', 'e', 'l'] n,
    descriptions := parseLits ['t', 'i', ':', 'd', 'e', 's', 'c', 'r', 'i', 'p', 't', 'i', 'o', 'n'] n,
    about := (namedKids ['t', 'i', ':', 'a', 'b', 'o', 'u', 't'] n).foldl (fun l c => addOnce l (valueText (c.get ['u', 'r', 'n']))) [],
    cite := ingestOnline n }

/-- The language of a work, or `None`. -/
def langFrom (n : Node) : Str := valueText (n.get ['x', 'm', 'l', ':', 'l', 'a', 'n', 'g'])

/-- The texts that the element of a work gives. -/
def textsFrom (n : Node) : List XText :=
  (namedKids ['t', 'i', ':', 'e', 'd', 'i', 't', 'i', 'o', 'n'] n).map (textFrom .edition (some (langFrom n))) ++ (namedKids ['t', 'i', ':', 't', 'r', 'a', 'n', 's', 'l', 'a', 't', 'i', 'o', 'n'] n).map (textFrom .translation (some (langFrom n))) ++
    (namedKids ['t', 'i', ':', 'c', 'o', 'm', 'm', 'e', 'n', 't', 'a', 'r', 'y'] n).map (textFrom .commentary (some (langFrom n)))

/-- The work that an element gives. -/
def workFrom (n : Node) : XWork := { id := urnOf n, lang := langFrom n, titles := parseLits ['t', 'i', ':', 't', 'i', 't', 'l', 'e'] n, texts := textsFrom n }

/-- The textgroup that an element gives. -/
def groupFrom (n : Node) : XGroup := { id := urnOf n, names := parseLits ['t', 'i', ':', 'g', 'r', 'o', 'u', 'p', 'n', 'a', 'm', 'e'] n, works := (namedKids ['t', 'i', ':', 'w', 'o', 'r', 'k'] n).map workFrom }

theorem text_from {nsmap ob} {k : Kind} {lang : Option Str} {g : Graph} {n : Node} {t : XText} {g' : Graph}
    (h : parseTextS nsmap ob k lang g n = .ok (t, g')) : t = textFrom k lang n := by
  unfold parseTextS parseText at h
  cases hid : parseId n with
  | error e => rw [hid] at h; cases h
  | ok id =>
    rw [hid] at h
    dsimp only at h
    split at h
    · cases h
    · cases h
      rw [parseId_urn hid]
      rfl

theorem textsFrom_ids (n : Node) : (textsFrom n).map XText.id = (textElements n).map fun x => urnOf x.element := by
  have t1 : ("ti:" ++ kindName .edition).toList = ['t', 'i', ':', 'e', 'd', 'i', 't', 'i', 'o', 'n'] := by decide +kernel
  have t2 : ("ti:" ++ kindName .translation).toList = ['t', 'i', ':', 't', 'r', 'a', 'n', 's', 'l', 'a', 't', 'i', 'o', 'n'] := by decide +kernel
  have t3 : ("ti:" ++ kindName .commentary).toList = ['t', 'i', ':', 'c', 'o', 'm', 'm', 'e', 'n', 't', 'a', 'r', 'y'] := by decide +kernel
  unfold textsFrom textElements
  rw [namedKids_children t1, namedKids_children t2, namedKids_children t3]
  simp only [List.map_append, List.map_map, List.flatMap_cons, List.flatMap_nil, List.append_nil, List.append_assoc]
  rfl

theorem texts_from {nsmap ob} {g : Graph} {n : Node} {l : List XText} {g' : Graph} (hd : Distinct (textElements n))
    (h : parseTextsS nsmap ob (langFrom n) g n = .ok (l, g')) : l = textsFrom n := by
  have hn : ((textsFrom n).map XText.id).Nodup := by rw [textsFrom_ids]; exact hd
  unfold textsFrom at *
  rw [List.map_append, List.nodup_append] at hn
  unfold parseTextsS at h
  split at h
  · cases h
  · rename_i l1 g1 h1
    split at h
    · cases h
    · rename_i l2 g2 h2
      have e1 := into_all (fun _ _ _ _ _ h => text_from h) h1 (by
        have := hn.1
        rw [List.map_append, List.nodup_append] at this
        simpa using this.1)
      subst e1
      have e2 := into_all (fun _ _ _ _ _ h => text_from h) h2 (by simpa using hn.1)
      subst e2
      have e3 := into_all (fun _ _ _ _ _ h => text_from h) h (by
        rw [List.nil_append, List.map_append, List.nodup_append]; exact hn)
      simpa using e3

theorem work_from {nsmap ob} {p : Option Str} {g : Graph} {n : Node} {t : XWork} {g' : Graph} (hd : Distinct (workAndTexts p n))
    (h : parseWorkS nsmap ob g n = .ok (t, g')) : t = workFrom n := by
  unfold parseWorkS at h
  cases hid : parseId n with
  | error e => rw [hid] at h; cases h
  | ok id =>
    rw [hid] at h
    dsimp only at h
    split at h
    · cases h
    · rename_i l1 g1 h1
      split at h
      · cases h
      · cases h
        rw [texts_from (distinct_cons hd).1 h1, parseId_urn hid]
        rfl

theorem distinct_flatMap {ns : List Node} {T : Node → List Thing} (h : Distinct (ns.flatMap T)) : ∀ n ∈ ns, Distinct (T n) := by
  induction ns with
  | nil => intro n hn; cases hn
  | cons m r ih =>
    rw [List.flatMap_cons] at h
    obtain ⟨a, b, _⟩ := distinct_append h
    intro n hn
    rcases List.mem_cons.1 hn with rfl | hn
    · exact a
    · exact ih b n hn

/-- The identifiers of the elements of which each begins its own list. -/
theorem distinct_heads {ns : List Node} {T : Node → List Thing} {hd : Node → Thing} (hT : ∀ n ∈ ns, ∃ r, T n = hd n :: r) (he : ∀ n, urnOf (hd n).element = urnOf n)
    (h : Distinct (ns.flatMap T)) : (ns.map urnOf).Nodup := by
  induction ns with
  | nil => simp
  | cons m r ih =>
    rw [List.flatMap_cons] at h
    obtain ⟨_, b, c⟩ := distinct_append h
    rw [List.map_cons, List.nodup_cons]
    refine ⟨fun hm => ?_, ih (fun n hn => hT n (by simp [hn])) b⟩
    obtain ⟨n, hn, e⟩ := List.mem_map.1 hm
    obtain ⟨r1, e1⟩ := hT m (by simp)
    obtain ⟨r2, e2⟩ := hT n (by simp [hn])
    refine node_ne.1 (c (hd m) (by simp [e1]) (hd n) (List.mem_flatMap.2 ⟨n, hn, by simp [e2]⟩)) ?_
    rw [he, he, e]

theorem group_from {nsmap ob} {p : Option Str} {g : Graph} {n : Node} {t : XGroup} {g' : Graph} (hd : Distinct (groupAndBelow p n))
    (h : parseGroupS nsmap ob g n = .ok (t, g')) : t = groupFrom n := by
  have t1 : "ti:work".toList = ['t', 'i', ':', 'w', 'o', 'r', 'k'] := by decide +kernel
  have hb := (distinct_cons hd).1
  rw [← namedKids_children t1] at hb
  unfold parseGroupS at h
  cases hid : parseId n with
  | error e => rw [hid] at h; cases h
  | ok id =>
    rw [hid] at h
    dsimp only at h
    split at h
    · cases h
    · rename_i l1 g1 h1
      split at h
      · cases h
      · cases h
        have e1 := into_all (t := workFrom) (fun m hm _ _ _ h => work_from (distinct_flatMap hb m hm) h) h1 (by
          have := distinct_heads (hd := fun m => .work (some (urnOf n)) m) (fun m _ => ⟨textElements m, rfl⟩) (fun _ => rfl) hb
          simpa [Function.comp_def, workFrom] using this)
        rw [e1, parseId_urn hid]
        rfl

theorem inv_from {nsmap ob} {g : Graph} {n : Node} {t : XInv} {g' : Graph} (hd : Distinct (things n))
    (h : parseInvS nsmap ob g n = .ok (t, g')) : t = ⟨inventoryId n, (named "ti:textgroup" n).map groupFrom⟩ := by
  have t1 := named_eq (n := n) (name := "ti:TextInventory") (tag := ['t', 'i', ':', 'T', 'e', 'x', 't', 'I', 'n', 'v', 'e', 'n', 't', 'o', 'r', 'y']) (by decide +kernel)
  have t2 := named_eq (n := n) (name := "ti:textgroup") (tag := ['t', 'i', ':', 't', 'e', 'x', 't', 'g', 'r', 'o', 'u', 'p']) (by decide +kernel)
  have t3 : "tiid".toList = ['t', 'i', 'i', 'd'] := by decide +kernel
  unfold parseInvS at h
  unfold things at hd
  rw [t1, t2] at h
  unfold inventoryId at *
  split at h
  · cases h
  · rename_i e r he
    split at h
    · cases h
    · rename_i l1 g1 h1
      cases h
      have e1 := into_all (t := groupFrom) (fun m hm _ _ _ h => group_from (distinct_flatMap hd m hm) h) h1 (by
        have := distinct_heads (hd := fun m => .textgroup (some _) m) (fun m _ => ⟨_, rfl⟩) (fun _ => rfl) hd
        simpa [Function.comp_def, groupFrom] using this)
      rw [e1, he, t3]
      rfl

/-! ### What the export reads of a document whose identifiers differ -/

theorem allAlike_map {α β : Type} {r : α → α → Prop} {f t : β → α} {l : List β} (h : ∀ x ∈ l, r (f x) (t x)) : AllAlike r (l.map f) (l.map t) := by
  induction l with
  | nil => exact .nil
  | cons x l ih => exact .cons (h x (by simp)) (ih fun y hy => h y (by simp [hy]))

theorem allAlike_append {α : Type} {r : α → α → Prop} {a b c d : List α} (h1 : AllAlike r a b) (h2 : AllAlike r c d) : AllAlike r (a ++ c) (b ++ d) := by
  induction h1 with
  | nil => exact h2
  | cons h _ ih => exact .cons h ih

/-- The properties of the CTS vocabulary that are read. -/
def readNames : List String := ["groupname", "title", "label", "description", "about"]

theorem readNames_inj : ∀ a ∈ readNames, ∀ b ∈ readNames, cts a = cts b → a = b := by decide +kernel

theorem readNames_apart : ∀ a ∈ readNames, cts a ∉ labelPredicates ∧ cts a ∉ replacedPredicates ∧
    cts a ≠ .uri "http://purl.org/capitains/ns/1.0#parent".toList := by decide +kernel

theorem properties_read {x : Thing} : ∀ a ∈ x.properties, a ∈ readNames ∧ a ≠ "about" := by
  cases x <;> simp [Thing.properties, Thing.title, readNames]

/-- The structured metadata of an object use none of the predicates that are used otherwise. -/
def Apart (x : Thing) : Prop := ∀ m ∈ x.block, ∀ u, Named m.tag u →
  ∀ p ∈ replacedPredicates ++ labelPredicates ++ ["groupname", "title", "label", "description", "about"].map cts, (Term.uri u) ≠ p

theorem told_property {nsmap ob} {x : Thing} (ha : Apart x) {name : String} (hn : name ∈ x.properties) {o : Term} :
    Told nsmap ob x (cts name) o ↔ Gives x name o := by
  obtain ⟨h1, h2⟩ := properties_read name hn
  obtain ⟨h3, h4, h5⟩ := readNames_apart name h1
  constructor
  · intro h
    rw [told_iff] at h
    rcases h with (⟨name', a, b, c⟩ | ⟨a, _⟩ | ⟨w, k, e, _, a, _⟩ | ⟨a, _⟩) | ⟨m, hm, u, hu, e, _⟩
    · rw [readNames_inj name h1 name' (properties_read name' a).1 b]
      exact c
    · exact absurd a h3
    · exact absurd (readNames_inj name h1 "about" (by decide) a) h2
    · exact absurd a h5
    · exact absurd e.symm (ha m hm u hu (cts name) (List.mem_append_right _ (List.mem_map_of_mem h1)))
  · exact fun h => .property hn h

theorem told_about {nsmap ob} {w e : Node} {k : Kind} (ha : Apart (.text w k e)) {o : Term} :
    Told nsmap ob (.text w k e) (cts "about") o ↔ ∃ c ∈ childrenCalled "ti:about" e, o = .uri ((c.get "urn".toList).getD "None".toList) := by
  have h1 : "about" ∈ readNames := by decide
  obtain ⟨h3, h4, h5⟩ := readNames_apart _ h1
  constructor
  · intro h
    rw [told_iff] at h
    rcases h with (⟨name', a, b, c⟩ | ⟨a, _⟩ | ⟨w', k', e', h, _, a⟩ | ⟨a, _⟩) | ⟨m, hm, u, hu, e, _⟩
    · exact absurd (readNames_inj _ h1 name' (properties_read name' a).1 b).symm (properties_read name' a).2
    · exact absurd a h3
    · cases h; exact a
    · exact absurd a h5
    · exact absurd e.symm (ha m hm u hu _ (List.mem_append_right _ (List.mem_map_of_mem h1)))
  · rintro ⟨c, hc, rfl⟩
    exact .about hc

theorem told_replaced {nsmap ob} {x : Thing} (ha : Apart x) {p o : Term} (hp : p ∈ replacedPredicates) : ¬ Told nsmap ob x p o := by
  intro h
  rw [told_iff] at h
  have h2 : ∀ p ∈ replacedPredicates, p ∉ labelPredicates := by decide +kernel
  rcases h with (⟨name', a, b, c⟩ | ⟨a, _⟩ | ⟨w', k', e', h, a, _⟩ | ⟨a, _⟩) | ⟨m, hm, u, hu, e, _⟩
  · exact (readNames_apart name' (properties_read name' a).1).2.1 (b ▸ hp)
  · exact h2 p hp a
  · exact (readNames_apart "about" (by decide)).2.1 (a ▸ hp)
  · exact capParent_ne (a ▸ hp)
  · exact ha m hm u hu p (by simp [hp]) e.symm

/-- What is said under a property of an object of which nothing was said before. -/
theorem said_property {nsmap ob} {g : Graph} {x : Thing} (hf : ∀ p o, (⟨x.node, p, o⟩ : Triple) ∉ g) {v : Str} {name : String} (hn : name ∈ readNames) {o : Term} :
    SaidAfter nsmap ob g x v (cts name) o ↔ Told nsmap ob x (cts name) o := by
  have h := (readNames_apart name hn).2.1
  unfold replacedPredicates at h
  simp only [List.mem_cons, List.not_mem_nil, or_false, not_or] at h
  unfold SaidAfter
  simp [h, hf]

theorem said_language {nsmap ob} {g : Graph} {x : Thing} (hf : ∀ p o, (⟨x.node, p, o⟩ : Triple) ∉ g) (ha : Apart x) {v : Str} {o : Term} :
    SaidAfter nsmap ob g x v (dc "language") o ↔ x.speaks ∧ o = .lit v none none := by
  have h : ¬ Told nsmap ob x (dc "language") o := told_replaced ha (by simp [replacedPredicates])
  have h1 := lang_ne
  unfold SaidAfter
  simp [h, h1, hf]

theorem getLang_none {order : Order} (ho : Rearranges order) {g : Graph} {n : Term} (h : ∀ o, (⟨n, dc "language", o⟩ : Triple) ∉ g) :
    getLang order g n = "None".toList := by
  have h : ∀ o, o ∉ g.objects order n dcLanguage := by
    intro o hm
    rw [mem_objects ho, dcLanguage_eq] at hm
    exact h o hm
  have hn : "None".toList = ['N', 'o', 'n', 'e'] := by decide +kernel
  rw [getLang, List.eq_nil_iff_forall_not_mem.2 h, hn]
  rfl

section
variable {order : Order} (ho : Rearranges order) {nsmap : List (Str × Str)} {ob : Str → Objectified} {g g' : Graph} (hg : g'.Nodup)
include ho hg

theorem seen_lits {x : Thing} {v : Str} (hf : ∀ p o, (⟨x.node, p, o⟩ : Triple) ∉ g) (ha : Apart x)
    (hs : ∀ p o, (⟨x.node, p, o⟩ : Triple) ∈ g' ↔ SaidAfter nsmap ob g x v p o) {name : String} {prop tag : Str} (hn : name ∈ x.properties)
    (hp : ctsTerm prop = cts name) (ht : ("ti:" ++ name).toList = tag) :
    ((g'.objects order x.node (ctsTerm prop)).map litOf).Perm (parseLits tag x.element) :=
  lits_perm ho hg fun o => by
    rw [hp, hs, said_property hf (properties_read name hn).1, told_property ha hn, gives_iff ht]

theorem text_alike {w e : Node} {k : Kind} {v : Str} (hf : ∀ p o, (⟨(Thing.text w k e).node, p, o⟩ : Triple) ∉ g) (hw : ∀ p o, (⟨.uri (urnOf w), p, o⟩ : Triple) ∉ g)
    (ha : Apart (.text w k e)) (hv : (Thing.text w k e).Speaks g v)
    (hs : ∀ p o, (⟨(Thing.text w k e).node, p, o⟩ : Triple) ∈ g' ↔ SaidAfter nsmap ob g (.text w k e) v p o) :
    TextAlike (seenText order g' ⟨urnOf e, k, ingestOnline e⟩) (textFrom k (some (langFrom w)) e) := by
  have hl : "xml:lang".toList = ['x', 'm', 'l', ':', 'l', 'a', 'n', 'g'] := by decide +kernel
  have hN : "None".toList = ['N', 'o', 'n', 'e'] := by decide +kernel
  have hu : "urn".toList = ['u', 'r', 'n'] := by decide +kernel
  have hv' : v = (textFrom k (some (langFrom w)) e).lang := by
    unfold textFrom langFrom
    dsimp only
    simp only [Thing.Speaks, hl] at hv
    have hnone : ∀ v, SpokenIn g (.uri (urnOf w)) v → v = ['N', 'o', 'n', 'e'] := by
      rintro v (⟨o, h, _⟩ | ⟨_, h⟩)
      · exact absurd h (hw _ _)
      · rw [h, hN]
    by_cases hk : k = .edition
    · simp only [hk, if_true] at hv ⊢
      cases h1 : w.get ['x', 'm', 'l', ':', 'l', 'a', 'n', 'g'] with
      | none => rw [h1] at hv; exact hnone v hv
      | some l => rw [h1] at hv; exact hv
    · simp only [hk, if_false] at hv ⊢
      cases h2 : e.get ['x', 'm', 'l', ':', 'l', 'a', 'n', 'g'] with
      | some l => rw [h2] at hv; exact hv
      | none =>
        rw [h2] at hv
        cases h1 : w.get ['x', 'm', 'l', ':', 'l', 'a', 'n', 'g'] with
        | none => rw [h1] at hv; exact hnone v hv
        | some l => rw [h1] at hv; exact hv
  refine ⟨rfl, rfl, ?_, rfl, ?_, ?_, ?_⟩
  · rw [← hv']
    refine getLang_of ho fun o => ?_
    rw [dcLanguage_eq]
    refine (hs _ o).trans ((said_language hf ha).trans ?_)
    simp [Thing.speaks]
  · exact seen_lits ho hg hf ha hs (name := "label") (by simp [Thing.properties]) ctsLabel_eq (by decide +kernel)
  · exact seen_lits ho hg hf ha hs (name := "description") (by simp [Thing.properties]) ctsDescription_eq (by decide +kernel)
  · have hm : ∀ o, o ∈ g'.objects order (.uri (urnOf e)) (ctsTerm ['a', 'b', 'o', 'u', 't']) ↔ ∃ c ∈ namedKids ['t', 'i', ':', 'a', 'b', 'o', 'u', 't'] e, o = .uri (valueText (c.get ['u', 'r', 'n'])) := by
      intro o
      rw [mem_objects ho, ctsAbout_eq]
      refine (hs _ o).trans ((said_property hf (by decide)).trans ((told_about ha).trans ?_))
      rw [namedKids_children (name := "ti:about") (by decide +kernel), hu, hN]
      have hval : ∀ x : Option Str, valueText x = x.getD ['N', 'o', 'n', 'e'] := fun x => by cases x <;> rfl
      simp only [hval]
    have hfold := about_fold (namedKids ['t', 'i', ':', 'a', 'b', 'o', 'u', 't'] e) [] List.nodup_nil
    refine (List.perm_ext_iff_of_nodup ?_ hfold.1).2 fun x => ?_
    · rw [List.Nodup]
      show List.Pairwise _ (List.map _ _)
      rw [List.pairwise_map]
      refine List.Pairwise.imp_of_mem (fun {a b} h1 h2 hab => ?_) (objects_nodup ho hg _ _)
      obtain ⟨c, _, rfl⟩ := (hm a).1 h1
      obtain ⟨d, _, rfl⟩ := (hm b).1 h2
      intro e
      exact hab (congrArg Term.uri e)
    · rw [hfold.2]
      simp only [List.not_mem_nil, false_or]
      show x ∈ List.map _ _ ↔ _
      rw [List.mem_map]
      constructor
      · rintro ⟨o, h, rfl⟩
        obtain ⟨c, hc, rfl⟩ := (hm o).1 h
        exact ⟨c, hc, rfl⟩
      · rintro ⟨c, hc, rfl⟩
        exact ⟨_, (hm _).2 ⟨c, hc, rfl⟩, rfl⟩

/-- All that is said of objects of which nothing was said before. -/
structure SettledNew (nsmap : List (Str × Str)) (ob : Str → Objectified) (g g' : Graph) (xs : List Thing) : Prop where
  fresh : Unmentioned g xs
  apart : ∀ x ∈ xs, Apart x
  said : Settles nsmap ob g g' xs

omit ho hg in
theorem SettledNew.mono {xs ys : List Thing} (h : SettledNew nsmap ob g g' xs) (hs : ∀ y ∈ ys, y ∈ xs) : SettledNew nsmap ob g g' ys :=
  ⟨fun y hy => h.fresh y (hs y hy), fun y hy => h.apart y (hs y hy), fun y hy => h.said y (hs y hy)⟩

theorem work_alike {p : Option Str} {w : Node} (h : SettledNew nsmap ob g g' (workAndTexts p w)) : WorkAlike (seenWork order g' (bareWork (workFrom w))) (workFrom w) := by
  have hl : "xml:lang".toList = ['x', 'm', 'l', ':', 'l', 'a', 'n', 'g'] := by decide +kernel
  have hN : "None".toList = ['N', 'o', 'n', 'e'] := by decide +kernel
  have hw : (Thing.work p w) ∈ workAndTexts p w := by simp [workAndTexts]
  obtain ⟨v, hv, hs⟩ := h.said _ hw
  have hf := h.fresh _ hw
  have ha := h.apart _ hw
  refine ⟨rfl, ?_, ?_, ?_⟩
  · show getLang order g' (.uri (urnOf w)) = langFrom w
    unfold langFrom
    simp only [Thing.speaks, Thing.Speaks, hl] at hv
    cases h1 : w.get ['x', 'm', 'l', ':', 'l', 'a', 'n', 'g'] with
    | none =>
      rw [getLang_none ho, hN]
      · rfl
      · intro o hm
        have := (said_language hf ha).1 ((hs _ o).1 hm)
        simp [Thing.speaks, hl, h1] at this
    | some l =>
      have e : l = v := by have := hv (by simp [h1]); rw [h1] at this; exact Option.some.inj this
      subst e
      refine getLang_of ho fun o => ?_
      rw [dcLanguage_eq]
      refine (hs _ o).trans ((said_language hf ha).trans ?_)
      simp [Thing.speaks, hl, h1, valueText]
  · exact seen_lits ho hg hf ha hs (name := "title") (by simp [Thing.properties, Thing.title]) ctsTitle_eq (by decide +kernel)
  · have hw' : ∀ p o, (⟨.uri (urnOf w), p, o⟩ : Triple) ∉ g := hf
    have one : ∀ k, ∀ e, Thing.text w k e ∈ textElements w → TextAlike (seenText order g' (bareText (textFrom k (some (langFrom w)) e))) (textFrom k (some (langFrom w)) e) := by
      intro k e hm
      have hm : Thing.text w k e ∈ workAndTexts p w := by simp [workAndTexts, hm]
      obtain ⟨v, hv, hs⟩ := h.said _ hm
      exact text_alike ho hg (h.fresh _ hm) hw' (h.apart _ hm) (hv trivial) hs
    have t1 : ("ti:" ++ kindName .edition).toList = ['t', 'i', ':', 'e', 'd', 'i', 't', 'i', 'o', 'n'] := by decide +kernel
    have t2 : ("ti:" ++ kindName .translation).toList = ['t', 'i', ':', 't', 'r', 'a', 'n', 's', 'l', 'a', 't', 'i', 'o', 'n'] := by decide +kernel
    have t3 : ("ti:" ++ kindName .commentary).toList = ['t', 'i', ':', 'c', 'o', 'm', 'm', 'e', 'n', 't', 'a', 'r', 'y'] := by decide +kernel
    show AllAlike TextAlike (((textsFrom w).map bareText).map (seenText order g')) (textsFrom w)
    unfold textsFrom
    rw [namedKids_children t1, namedKids_children t2, namedKids_children t3]
    simp only [List.map_append, List.map_map]
    have mem : ∀ k ∈ [Kind.edition, .translation, .commentary], ∀ e ∈ childrenCalled ("ti:" ++ kindName k) w, Thing.text w k e ∈ textElements w :=
      fun k hk e he => List.mem_flatMap.2 ⟨k, hk, List.mem_map_of_mem he⟩
    refine allAlike_append (allAlike_append (allAlike_map fun e he => ?_) (allAlike_map fun e he => ?_)) (allAlike_map fun e he => ?_)
    · exact one _ e (mem _ (by simp) e he)
    · exact one _ e (mem _ (by simp) e he)
    · exact one _ e (mem _ (by simp) e he)

theorem group_alike {p : Option Str} {n : Node} (h : SettledNew nsmap ob g g' (groupAndBelow p n)) : GroupAlike (seenGroup order g' (bareGroup (groupFrom n))) (groupFrom n) := by
  have t1 : "ti:work".toList = ['t', 'i', ':', 'w', 'o', 'r', 'k'] := by decide +kernel
  have hw : (Thing.textgroup p n) ∈ groupAndBelow p n := by simp [groupAndBelow]
  obtain ⟨v, hv, hs⟩ := h.said _ hw
  have hf := h.fresh _ hw
  have ha := h.apart _ hw
  refine ⟨rfl, ?_, ?_⟩
  · exact seen_lits ho hg hf ha hs (name := "groupname") (by simp [Thing.properties, Thing.title]) ctsGroupname_eq (by decide +kernel)
  · show AllAlike WorkAlike ((((namedKids ['t', 'i', ':', 'w', 'o', 'r', 'k'] n).map workFrom).map bareWork).map (seenWork order g')) ((namedKids ['t', 'i', ':', 'w', 'o', 'r', 'k'] n).map workFrom)
    rw [namedKids_children t1]
    simp only [List.map_map]
    exact allAlike_map fun w hw => work_alike ho hg (p := some (urnOf n)) (h.mono fun y hy => by
      unfold groupAndBelow
      exact List.mem_cons_of_mem _ (List.mem_flatMap.2 ⟨w, hw, hy⟩))

theorem inv_alike {i : Str} {ns : List Node} {p : Option Str} (h : SettledNew nsmap ob g g' (ns.flatMap (groupAndBelow p))) :
    InvAlike (seenInv order g' (bareInv ⟨i, ns.map groupFrom⟩)) ⟨i, ns.map groupFrom⟩ := by
  refine ⟨rfl, ?_⟩
  show AllAlike GroupAlike (((ns.map groupFrom).map bareGroup).map (seenGroup order g')) (ns.map groupFrom)
  simp only [List.map_map]
  exact allAlike_map fun n hn => group_alike ho hg (p := p) (h.mono fun y hy => List.mem_flatMap.2 ⟨n, hn, hy⟩)

end

end Verif.Lemmas
