import Verif.Lemmas.FileHistory
import Verif.Props.LocalResolver
/-!
C108: a local resolver whose files change after it was made.

The resolver reads the metadata once, and the file of a text again for every question. So its replies are those of a
resolver made at that moment from the same metadata, whatever was written or removed in between, for any metadata, any
URN and any reference. What it says about citation schemes stays as it was.
-/
namespace Verif.Props
open Verif.Py Verif.Model Verif.Spec Verif.Lemmas

/-- C108 (making): from the same metadata, resolvers made when the files of the texts were different fail alike or have
the same inventory, but for citation schemes. -/
theorem C108_made (files files' : Files) (raises : Bool) (d : Dispatcher) (hf : ∀ m ∈ d.methods, IgnoresSchemes m.2) (found : List TgFile) :
    (∀ e, parseFiles files raises d found = .error e ↔ parseFiles files' raises d found = .error e) ∧
    ∀ d0 d1, parseFiles files raises d found = .ok d0 → parseFiles files' raises d found = .ok d1 →
      SameButSchemes d0.root d1.root ∧ d0.methods = d1.methods := by
  have h := parseFiles_agree files files' raises d hf found
  revert h
  cases parseFiles files raises d found <;> cases parseFiles files' raises d found <;> intro h
  · simp only [Agree] at h
    subst h
    exact ⟨fun e => Iff.rfl, by intro _ _ h; cases h⟩
  · exact h.elim
  · exact h.elim
  · refine ⟨fun e => by simp, ?_⟩
    intro d0 d1 h0 h1
    cases h0
    cases h1
    exact h

/-- C108 (replies): a resolver made when the files were `files0` replies, when they are `files`, as one made then. -/
theorem C108_reply (files0 files : Files) (raises : Bool) (d : Dispatcher) (hf : ∀ m ∈ d.methods, IgnoresSchemes m.2) (found : List TgFile)
    (d0 d1 : Dispatcher) (h0 : parseFiles files0 raises d found = .ok d0) (h1 : parseFiles files raises d found = .ok d1) (same : Same) (q : TextAsked) :
    reply same files d0.root q = reply same files d1.root q :=
  reply_same same files ((C108_made files0 files raises d hf found).2 d0 d1 h0 h1).1 q

/-- C108 (history): whatever is written, removed and asked, in any order, the replies of a resolver made once are those
of resolvers made anew for every question. -/
theorem C108_history (files0 files : Files) (raises : Bool) (d : Dispatcher) (hf : ∀ m ∈ d.methods, IgnoresSchemes m.2) (found : List TgFile)
    (d0 : Dispatcher) (h0 : parseFiles files0 raises d found = .ok d0) (same : Same) (es : List Happening) :
    repliesAnew same (fun fs => parseFiles fs raises d found) files es = (repliesOf same d0.root files es).map .ok := by
  induction es generalizing files with
  | nil => rfl
  | cons e es ih =>
    cases e with
    | write p c => exact ih _
    | remove p => exact ih _
    | ask q =>
      simp only [repliesAnew, repliesOf, List.map_cons, ih]
      congr 1
      cases h1 : parseFiles files raises d found with
      | error e =>
        have := ((C108_made files0 files raises d hf found).1 e).mpr h1
        rw [h0] at this
        cases this
      | ok d1 => simp only [Except.map, C108_reply files0 files raises d hf found d0 d1 h0 h1 same q]

theorem fileAfter_untouched {path : Str} {es : List Happening} (h : Untouched path es) (files : Files) : fileAfter files es path = files path := by
  induction es generalizing files with
  | nil => rfl
  | cons e es ih =>
    have hr : Untouched path es := fun x hx => h x (List.mem_cons_of_mem _ hx)
    have he := h e (by simp)
    cases e with
    | write p c =>
      rw [fileAfter, ih hr, setFile, if_neg]
      rintro rfl
      exact he.1 c rfl
    | remove p =>
      rw [fileAfter, ih hr, setFile, if_neg]
      rintro rfl
      exact he.2 rfl
    | ask q => exact ih hr _

/-- C108 (other files): what happens to other files does not change the replies about a text. -/
theorem C108_other_files (lv : Levels) (r : RootV) (parts : TextV → UrnParts) (hl : Library lv r parts) (p : UrnParts) (t : TextV)
    (ha : Asks r parts p t) (files : Files) (same : Same) (es : List Happening) (hu : Untouched t.path es) (q : TextAsked) (hq : q.textId = p.write) :
    reply same (fileAfter files es) r q = reply same files r q := by
  have h : fetchTextId (fileAfter files es) same r p.write = fetchTextId files same r p.write := by
    rw [fetchTextId_asks hl ha, fetchTextId_asks hl ha, fileAfter_untouched hu]
  cases q with
  | node s sub => simp only [TextAsked.textId] at hq; subst hq; simp only [reply, resolverNode, h]
  | siblings s sub => simp only [TextAsked.textId] at hq; subst hq; simp only [reply, resolverSiblings, h]
  | reffs s level sub => simp only [TextAsked.textId] at hq; subst hq; simp only [reply, resolverReffs, h]

/-- C108 (last writing): what was at a path before the last writing does not matter: the replies about a text whose file
was written, and then left alone, are those for the document that was written last. -/
theorem C108_last_written (lv : Levels) (r : RootV) (parts : TextV → UrnParts) (hl : Library lv r parts) (p : UrnParts) (t : TextV)
    (ha : Asks r parts p t) (files files' : Files) (same : Same) (before after : List Happening) (c : Except PyErr Node)
    (hu : Untouched t.path after) (q : TextAsked) (hq : q.textId = p.write) :
    reply same (fileAfter files (before ++ .write t.path c :: after)) r q = reply same (setFile files' t.path (some c)) r q := by
  have hp : fileAfter files (before ++ .write t.path c :: after) t.path = setFile files' t.path (some c) t.path := by
    have : ∀ fs, fileAfter fs (before ++ .write t.path c :: after) = fileAfter (fileAfter fs before) (.write t.path c :: after) := by
      induction before with
      | nil => intro fs; rfl
      | cons e es ih => intro fs; cases e <;> exact ih _
    rw [this, fileAfter, fileAfter_untouched hu]
    simp [setFile]
  have h : fetchTextId (fileAfter files (before ++ .write t.path c :: after)) same r p.write = fetchTextId (setFile files' t.path (some c)) same r p.write := by
    rw [fetchTextId_asks hl ha, fetchTextId_asks hl ha, hp]
  cases q with
  | node s sub => simp only [TextAsked.textId] at hq; subst hq; simp only [reply, resolverNode, h]
  | siblings s sub => simp only [TextAsked.textId] at hq; subst hq; simp only [reply, resolverSiblings, h]
  | reffs s level sub => simp only [TextAsked.textId] at hq; subst hq; simp only [reply, resolverReffs, h]

/-- C108 (folders to answers): a resolver made before the files were what they are now answers each unit of the document
that is now the file of a described text. -/
theorem C108_end_to_end (lv : Levels) (raises : Bool) (d : Dispatcher) (default : Str) (fs : List (Str × Filter))
    (hm : d.methods = (default, fun _ _ => .ok true) :: fs) (hr : FitsRoot lv d.root) (hempty : rootTexts d.root = [])
    (files : Files) (found : List TgFile) (parts : Str → UrnParts) (hf : Folders lv found parts)
    (hch : ∀ x ∈ found, ∃ name ∈ d.root.invs.map InvV.id,
      Chosen fs default (buildTg x.id (placeTg files x).works) x.path name)
    (same : Same) (hs : ∀ n i, same n i i = true) :
    ∃ d', parseFiles files raises d found = .ok d' ∧ ∀ es,
      ∀ x w t, DescribedIn found x w t → ∀ root ls, fileAfter files es (fileOf w.dir (parts t.id)) = some (.ok root) → DeclaresLevels root ls →
        ls ≠ [] → Citable root ls → ∀ k, 1 ≤ k → k ≤ ls.length → ∀ ids pos, (ids, pos) ∈ units (ls.take k) root → InUrn ids →
          resolverNode (fileAfter files es) same d'.root t.id (some (.text (dotted ids))) =
            .ok (.part (t.id ++ ':' :: dotted ids) ⟨single ids, emptied root (chainTo root pos), .text⟩) := by
  obtain ⟨d', hp, hl, hall, _⟩ := C82_library lv raises d default fs hm hr hempty files found parts hf hch
  refine ⟨d', hp, ?_⟩
  intro es x w t hd root ls hfile hdecl hne hcit k hk1 hk ids pos hu hin
  obtain ⟨t', ha, hid, _, _, hpath⟩ := hall x w t hd
  have := C82_unit lv d'.root _ hl _ t' ha (fileAfter files es) root ls ⟨hpath ▸ hfile, hdecl, hne, hcit⟩ same hs k hk1 hk ids pos hu hin
  rwa [← (hf.written x w t hd).2.1, hid] at this

/-! ### A concrete case -/

/-- The second edition is put in place and the first removed. -/
def exChanges : List Happening := [.write "data/g/w/g.w.e2.xml".toList (.ok published), .remove "data/g/w/g.w.e1.xml".toList]

/-- The filter of the dispatcher ignores schemes, and the resolver is made: the hypotheses of `C108_history` are met. -/
example : (∀ m ∈ exDispatcher.methods, IgnoresSchemes m.2) ∧ ∃ d0, parseFiles exFiles true exDispatcher exFound = .ok d0 ∧ d0.root = exParsed := by
  refine ⟨?_, _, rfl, rfl⟩
  intro m hm
  simp only [exDispatcher, List.mem_singleton] at hm
  subst hm
  intro _ _ _ _
  rfl

/-- What it answers afterwards: the new file is read, the removed one is missing. -/
example : resolverReffs (fileAfter exFiles exChanges) sameIdentity exParsed "urn:cts:a:g.w.e2".toList (some 1) none =
      .ok [some (single [['1']]), some (single [['2']])] ∧
    resolverReffs (fileAfter exFiles exChanges) sameIdentity exParsed "urn:cts:a:g.w.e1".toList (some 1) none = .error .attributeError := by
  constructor <;> decide +kernel

/-- The hypotheses of `C108_other_files` are met for the first edition while the second is written. -/
example (q : TextAsked) (hq : q.textId = (exFolderParts "urn:cts:a:g.w.e1".toList).write) :
    reply sameIdentity (fileAfter exFiles [.write "data/g/w/g.w.e2.xml".toList (.ok published)]) exParsed q = reply sameIdentity exFiles exParsed q := by
  obtain ⟨hl, t, ha, hh⟩ := exParsed_library
  refine C108_other_files _ _ _ hl _ t ha _ _ _ ?_ q hq
  have hp : t.path ≠ "data/g/w/g.w.e2.xml".toList := by
    intro e
    have := hh.file
    rw [e] at this
    revert this
    have : exFiles "data/g/w/g.w.e2.xml".toList = none := by decide +kernel
    rw [this]
    simp
  intro e he
  simp only [List.mem_singleton] at he
  subst he
  refine ⟨fun c h => hp ?_, by simp⟩
  simp only [Happening.write.injEq] at h
  exact h.1.symm

/-! ### Departures -/

/-- C108 (departure): metadata are those of the time when the resolver was made. Of a text whose file came later, all is
answered but `getMetadata`, which knows no such text; a resolver made now knows it. -/
theorem C108_fails_metadata :
    ∃ d1, parseFiles (fileAfter exFiles exChanges) true exDispatcher exFound = .ok d1 ∧
      getMetadata exParsed (some "urn:cts:a:g.w.e2".toList) = .error .unknownCollection ∧
      (getMetadata d1.root (some "urn:cts:a:g.w.e2".toList)).map Obj.id = .ok "urn:cts:a:g.w.e2".toList ∧
      resolverReffs (fileAfter exFiles exChanges) sameIdentity exParsed "urn:cts:a:g.w.e2".toList (some 1) none =
        .ok [some (single [['1']]), some (single [['2']])] := by
  refine ⟨_, rfl, ?_, ?_, ?_⟩ <;> decide +kernel

/-- A filter that looks at schemes: only textgroups all of whose texts have one. -/
def exPicky : Dispatcher :=
  ⟨⟨"tic".toList, [⟨"default".toList, []⟩]⟩, [("default".toList, fun g _ => .ok (g.works.all fun w => w.texts.all fun t => t.cite.isSome))]⟩

/-- The files when the second edition is there. -/
def exBoth : Files := setFile exFiles "data/g/w/g.w.e2.xml".toList (some (.ok published))

/-- C108 (departure): with a filter that looks at the schemes, a textgroup is left out for a file that was missing at the
time, and stays out. -/
theorem C108_fails_filter :
    (match parseFiles exFiles false exPicky exFound with
      | .ok d0 => some (resolverReffs exBoth sameIdentity d0.root "urn:cts:a:g.w.e1".toList (some 1) none)
      | .error _ => none) = some (.error .unknownCollection) ∧
    (match parseFiles exBoth false exPicky exFound with
      | .ok d1 => some (resolverReffs exBoth sameIdentity d1.root "urn:cts:a:g.w.e1".toList (some 1) none)
      | .error _ => none) = some (.ok [some (single [['1']]), some (single [['2']])]) := by
  constructor <;> decide +kernel

end Verif.Props
