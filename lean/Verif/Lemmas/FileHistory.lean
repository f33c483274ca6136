import Verif.Spec.FileHistory
/-! Lemmas for C108: the functions on inventories do not look at citation schemes. -/
namespace Verif.Lemmas
open Verif.Py Verif.Model Verif.Spec

theorem putKeyed_map {α : Type} (key : α → Str) (f : α → α) (hk : ∀ x, key (f x) = key x) (l : List α) (v : α) :
    putKeyed key (l.map f) (f v) = (putKeyed key l v).map f := by
  induction l with
  | nil => rfl
  | cons x r ih =>
    simp only [List.map_cons, putKeyed, hk]
    split
    · rfl
    · rw [ih]; rfl

theorem addKeyed_map_key {α : Type} (key : α → Str) (f : α → α) (hk : ∀ x, key (f x) = key x) (l : List α) (v : α) :
    addKeyed key (l.map f) (f v) = (addKeyed key l v).map f := by
  have e : (l.map f).map key = l.map key := by simp [hk]
  simp only [addKeyed, hk, e]
  split <;> simp

theorem foldl_putKeyed_map {α : Type} (key : α → Str) (f : α → α) (hk : ∀ x, key (f x) = key x) (vs l : List α) :
    (vs.map f).foldl (putKeyed key) (l.map f) = (vs.foldl (putKeyed key) l).map f := by
  induction vs generalizing l with
  | nil => rfl
  | cons v vs ih => simp only [List.map_cons, List.foldl_cons, putKeyed_map key f hk, ih]

theorem foldl_addKeyed_map {α : Type} (key : α → Str) (f : α → α) (hk : ∀ x, key (f x) = key x) (vs l : List α) :
    (vs.map f).foldl (addKeyed key) (l.map f) = (vs.foldl (addKeyed key) l).map f := by
  induction vs generalizing l with
  | nil => rfl
  | cons v vs ih => simp only [List.map_cons, List.foldl_cons, addKeyed_map_key key f hk, ih]

theorem find_map {α : Type} (f : α → α) (p : α → Bool) (hp : ∀ x, p (f x) = p x) (l : List α) :
    (l.map f).find? p = (l.find? p).map f := by
  induction l with
  | nil => rfl
  | cons x r ih => simp only [List.map_cons, List.find?_cons, hp]; split <;> simp [ih]

/-- Any object without citation schemes. -/
def plainObj : Obj → Obj
  | .text t => .text (plainText t)
  | .work w => .work (plainWork w)
  | .tg g => .tg (plainTg g)
  | .inv i => .inv (plainInv i)
  | .root r => .root (plainRoot r)

theorem plainObj_id (o : Obj) : (plainObj o).id = o.id := by cases o <;> rfl
theorem plainText_id (t : TextV) : (plainText t).id = t.id := rfl
theorem plainWork_id (w : WorkV) : (plainWork w).id = w.id := rfl
theorem plainTg_id (g : TgV) : (plainTg g).id = g.id := rfl
theorem plainInv_id (i : InvV) : (plainInv i).id = i.id := rfl

theorem workUpdate_plain (w v : WorkV) : workUpdate (plainWork w) (.work (plainWork v)) = (workUpdate w (.work v)).map plainWork := by
  by_cases hc : urnText w.id = urnText v.id
  · simp [workUpdate, hc, Except.map, plainWork, foldl_putKeyed_map TextV.id plainText plainText_id]
  · simp [workUpdate, hc, Except.map, plainWork]

theorem tgStep_plain (ws : List WorkV) (w : WorkV) :
    tgStep (ws.map plainWork) (plainWork w) = (tgStep ws w).map (List.map plainWork) := by
  have e : (ws.map plainWork).find? (fun x => x.id == (plainWork w).id) = (ws.find? fun x => x.id == w.id).map plainWork :=
    find_map plainWork _ (fun _ => rfl) ws
  simp only [tgStep, e]
  cases ws.find? fun x => x.id == w.id with
  | none => simp only [Option.map_none, Except.map, putKeyed_map WorkV.id plainWork plainWork_id]
  | some x =>
    simp only [Option.map_some, workUpdate_plain]
    cases workUpdate x (.work w) with
    | error e => rfl
    | ok y => simp only [Except.map, putKeyed_map WorkV.id plainWork plainWork_id]

theorem tgLoop_plain (vs ws : List WorkV) :
    tgLoop (ws.map plainWork) (vs.map plainWork) = (tgLoop ws vs).map (List.map plainWork) := by
  induction vs generalizing ws with
  | nil => rfl
  | cons v vs ih =>
    simp only [List.map_cons, tgLoop, tgStep_plain]
    cases tgStep ws v with
    | error e => rfl
    | ok y => exact ih y

theorem objUpdate_plain (o o' : Obj) : objUpdate (plainObj o) (plainObj o') = (objUpdate o o').map plainObj := by
  cases o with
  | text t => rfl
  | inv i => rfl
  | root r => rfl
  | work w =>
    cases o' with
    | work v =>
      simp only [plainObj, objUpdate, workUpdate_plain]
      cases workUpdate w (.work v) <;> rfl
    | _ => rfl
  | tg g =>
    cases o' with
    | tg h =>
      by_cases hc : urnText g.id = urnText h.id
      · have := tgLoop_plain h.works g.works
        simp only [plainObj, objUpdate, tgUpdate, plainTg, hc, this, ne_eq, not_true, if_false]
        cases tgLoop g.works h.works <;> rfl
      · simp [plainObj, objUpdate, tgUpdate, plainTg, hc, Except.map]
    | _ => rfl

theorem workDesc_plain (w : WorkV) : workDesc (plainWork w) = (workDesc w).map plainObj := by
  simp [workDesc, plainWork, plainObj]

theorem tgDesc_plain (g : TgV) : tgDesc (plainTg g) = (tgDesc g).map plainObj := by
  simp [tgDesc, plainTg, plainObj, List.flatMap_map, workDesc_plain, List.map_flatMap]

theorem invDesc_plain (i : InvV) : invDesc (plainInv i) = (invDesc i).map plainObj := by
  simp [invDesc, plainInv, plainObj, List.flatMap_map, tgDesc_plain, List.map_flatMap]

theorem rootDesc_plain (r : RootV) : rootDesc (plainRoot r) = (rootDesc r).map plainObj := by
  simp [rootDesc, plainRoot, plainObj, List.flatMap_map, invDesc_plain, List.map_flatMap]

theorem rootTexts_plain (r : RootV) : rootTexts (plainRoot r) = (rootTexts r).map plainText := by
  simp only [rootTexts, rootDesc_plain, List.filterMap_map, List.map_filterMap]
  congr 1
  funext o
  cases o <;> rfl

theorem objGet_plain (r : RootV) (key : Str) : objGet (.root (plainRoot r)) key = (objGet (.root r) key).map plainObj := by
  have e1 : objMembers (.root (plainRoot r)) = (objMembers (.root r)).map plainObj := by simp [objMembers, plainRoot, plainObj]
  have e2 : objDesc (.root (plainRoot r)) = (objDesc (.root r)).map plainObj := rootDesc_plain r
  have e0 : (Obj.root (plainRoot r)).id = (Obj.root r).id := rfl
  simp only [objGet, e1, e2, e0]
  rw [find_map plainObj (fun x => key == x.id) (by intro x; rw [plainObj_id]),
    find_map plainObj (fun x => x.id == key) (by intro x; rw [plainObj_id])]
  split
  · rfl
  · cases (objMembers (.root r)).find? fun x => key == x.id with
    | some x => rfl
    | none =>
      cases (objDesc (.root r)).find? fun x => x.id == key with
      | some x => rfl
      | none => rfl

theorem objContains_plain (r : RootV) (key : Str) : objContains (.root (plainRoot r)) key = objContains (.root r) key := by
  have e2 : objDesc (.root (plainRoot r)) = (objDesc (.root r)).map plainObj := rootDesc_plain r
  simp only [objContains, e2, List.any_append, List.any_map]
  congr 1
  apply congrArg (fun p => List.any _ p)
  funext x
  simp only [Function.comp, plainObj_id]

theorem putTgIn_plain (is : List InvV) (g : TgV) : putTgIn (is.map plainInv) (plainTg g) = (putTgIn is g).map plainInv := by
  induction is with
  | nil => rfl
  | cons i rest ih =>
    have e : (plainInv i).tgs.map TgV.id = i.tgs.map TgV.id := by simp [plainInv, plainTg]
    simp only [List.map_cons, putTgIn, e, plainTg_id]
    split
    · simp only [List.map_cons, plainInv, putKeyed_map TgV.id plainTg plainTg_id]
    · simp only [List.map_cons, ih]

theorem putWorkTgs_plain (gs : List TgV) (w : WorkV) : putWorkTgs (gs.map plainTg) (plainWork w) = (putWorkTgs gs w).map plainTg := by
  induction gs with
  | nil => rfl
  | cons g rest ih =>
    have e : (plainTg g).works.map WorkV.id = g.works.map WorkV.id := by simp [plainTg, plainWork]
    simp only [List.map_cons, putWorkTgs, e, plainWork_id]
    split
    · simp only [List.map_cons, plainTg, putKeyed_map WorkV.id plainWork plainWork_id]
    · simp only [List.map_cons, ih]

theorem putWorkIn_plain (is : List InvV) (w : WorkV) : putWorkIn (is.map plainInv) (plainWork w) = (putWorkIn is w).map plainInv := by
  induction is with
  | nil => rfl
  | cons i rest ih =>
    have e : ((plainInv i).tgs.flatMap fun g => g.works.map WorkV.id) = i.tgs.flatMap fun g => g.works.map WorkV.id := by
      simp [plainInv, plainTg, plainWork, List.flatMap_map, Function.comp_def]
    simp only [List.map_cons, putWorkIn, e, plainWork_id]
    split
    · simp only [List.map_cons, plainInv, putWorkTgs_plain]
    · simp only [List.map_cons, ih]

theorem updateFound_plain (r : RootV) (key : Str) (o : Obj) :
    updateFound (plainRoot r) key (plainObj o) = (updateFound r key o).map plainRoot := by
  simp only [updateFound, objGet_plain]
  cases objGet (.root r) key with
  | error e => rfl
  | ok x =>
    simp only [Except.map, objUpdate_plain]
    cases objUpdate x o with
    | error e => rfl
    | ok y =>
      cases y with
      | tg g => simp only [plainObj, plainRoot, putTgIn_plain]
      | work w => simp only [plainObj, plainRoot, putWorkIn_plain]
      | text t => rfl
      | inv i => rfl
      | root r => rfl

theorem worksOf_plain (r : RootV) (key : Str) : worksOf (plainRoot r) key = (worksOf r key).map (List.map plainWork) := by
  simp only [worksOf, objGet_plain]
  cases objGet (.root r) key with
  | error e => rfl
  | ok x => cases x <;> rfl

theorem dispatchWorks_plain (gid : Str) (ws : List WorkV) (r : RootV) :
    dispatchWorks gid (plainRoot r) (ws.map plainWork) = (dispatchWorks gid r ws).map plainRoot := by
  induction ws generalizing r with
  | nil => rfl
  | cons w ws ih =>
    simp only [List.map_cons, dispatchWorks, worksOf_plain]
    cases worksOf r gid with
    | error e => rfl
    | ok vs =>
      have e : (vs.map plainWork).map WorkV.id = vs.map WorkV.id := by simp [plainWork]
      simp only [Except.map, e, plainWork_id]
      split
      · have := updateFound_plain r w.id (.work w)
        simp only [plainObj] at this
        rw [this]
        cases updateFound r w.id (.work w) with
        | error e => rfl
        | ok r' => exact ih r'
      · exact ih r

theorem attach_plain (r : RootV) (g : TgV) (name : Str) : attach (plainRoot r) (plainTg g) name = (attach r g name).map plainRoot := by
  have e : (plainRoot r).invs.find? (fun i => i.id == name) = (r.invs.find? fun i => i.id == name).map plainInv :=
    find_map plainInv _ (fun _ => rfl) r.invs
  simp only [attach, e]
  cases r.invs.find? fun i => i.id == name with
  | none => rfl
  | some i =>
    simp only [Option.map_some, Except.map]
    have := putKeyed_map InvV.id plainInv plainInv_id r.invs { i with tgs := addKeyed TgV.id i.tgs g }
    simp only [plainInv] at this
    simp only [plainRoot, plainInv, addKeyed_map_key TgV.id plainTg plainTg_id, this]

/-- Two dispatchers that are the same but for citation schemes. -/
def SameDispatcher (d d' : Dispatcher) : Prop := SameButSchemes d.root d'.root ∧ d.methods = d'.methods

/-- The same failure, or results that are related. -/
def Agree {α β : Type} (R : α → β → Prop) : Except PyErr α → Except PyErr β → Prop
  | .error e, .error e' => e = e'
  | .ok x, .ok y => R x y
  | _, _ => False

theorem agree_of_map {α β : Type} {f : α → β} {x y : Except PyErr α} (h : x.map f = y.map f) : Agree (fun a b => f a = f b) x y := by
  cases x <;> cases y <;> simp_all [Except.map, Agree]

theorem map_of_agree {α β : Type} {f : α → β} {x y : Except PyErr α} (h : Agree (fun a b => f a = f b) x y) : x.map f = y.map f := by
  cases x <;> cases y <;> simp_all [Except.map, Agree]

theorem dispatchLoop_agree (r r' : RootV) (g g' : TgV) (path : Str) (ms : List (Str × Filter)) (hf : ∀ m ∈ ms, IgnoresSchemes m.2)
    (hr : SameButSchemes r r') (hg : plainTg g = plainTg g') :
    (dispatchLoop r g path ms).map plainRoot = (dispatchLoop r' g' path ms).map plainRoot := by
  induction ms with
  | nil => rfl
  | cons m ms ih =>
    obtain ⟨name, f⟩ := m
    have := hf (name, f) (by simp) g g' path hg
    simp only at this
    simp only [dispatchLoop, this]
    cases f g' path with
    | error e => rfl
    | ok b =>
      cases b with
      | true => simp only; rw [← attach_plain, ← attach_plain, hr, hg]
      | false => exact ih fun m hm => hf m (List.mem_cons_of_mem _ hm)

theorem resolverDispatch_agree (d d' : Dispatcher) (g g' : TgV) (path : Str) (hf : ∀ m ∈ d.methods, IgnoresSchemes m.2)
    (hd : SameDispatcher d d') (hg : plainTg g = plainTg g') :
    Agree SameDispatcher (resolverDispatch d g path) (resolverDispatch d' g' path) := by
  obtain ⟨hr, hm⟩ := hd
  have hid : g.id = g'.id := by simpa only [plainTg_id] using congrArg TgV.id hg
  have hc : objContains (.root d.root) g.id = objContains (.root d'.root) g'.id := by
    rw [← objContains_plain, ← objContains_plain d'.root, hr, hid]
  have hfirst : (if objContains (.root d.root) g.id then updateFound d.root g.id (.tg g) else dispatch d g path).map plainRoot =
      (if objContains (.root d'.root) g'.id then updateFound d'.root g'.id (.tg g') else dispatch d' g' path).map plainRoot := by
    rw [hc]
    split
    · have h1 := updateFound_plain d.root g.id (.tg g)
      have h2 := updateFound_plain d'.root g'.id (.tg g')
      rw [← h1, ← h2, hr, hid]
      simp only [plainObj, hg]
    · simp only [dispatch, hm]
      exact dispatchLoop_agree _ _ _ _ _ _ (by intro m h; exact hf m (by rw [hm]; simpa using h)) hr hg
  simp only [resolverDispatch]
  generalize (if objContains (.root d.root) g.id then updateFound d.root g.id (.tg g) else dispatch d g path) = x at hfirst
  generalize (if objContains (.root d'.root) g'.id then updateFound d'.root g'.id (.tg g') else dispatch d' g' path) = y at hfirst
  cases x with
  | error e =>
    cases y with
    | error e' => simpa [Except.map, Agree] using hfirst
    | ok r => simp [Except.map] at hfirst
  | ok r =>
    cases y with
    | error e' => simp [Except.map] at hfirst
    | ok r' =>
      simp only [Except.map, Except.ok.injEq] at hfirst
      have hw : g.works.map plainWork = g'.works.map plainWork := by simpa only [plainTg] using congrArg TgV.works hg
      have := dispatchWorks_plain g.id g.works r
      rw [hfirst, hw, hid, dispatchWorks_plain] at this
      simp only [hid]
      have h := agree_of_map this
      revert h
      cases dispatchWorks g'.id r' g'.works <;> cases dispatchWorks g'.id r g.works <;> simp [Agree, SameDispatcher, SameButSchemes, hm] <;>
        (intro h; exact h.symm)

theorem resolverDispatch_methods {d d' : Dispatcher} {g : TgV} {path : Str} (h : resolverDispatch d g path = .ok d') :
    d'.methods = d.methods := by
  simp only [resolverDispatch] at h
  split at h
  · cases h
  · split at h
    · cases h; rfl
    · cases h

theorem dispatchContainer_methods {raises : Bool} {d d' : Dispatcher} {g : TgV} {path : Str} (h : dispatchContainer raises d g path = .ok d') :
    d'.methods = d.methods := by
  simp only [dispatchContainer] at h
  split at h
  · split at h
    · cases h
    · cases h; rfl
  · exact resolverDispatch_methods h

theorem dispatchContainer_agree (raises : Bool) (d d' : Dispatcher) (g g' : TgV) (path : Str) (hf : ∀ m ∈ d.methods, IgnoresSchemes m.2)
    (hd : SameDispatcher d d') (hg : plainTg g = plainTg g') :
    Agree SameDispatcher (dispatchContainer raises d g path) (dispatchContainer raises d' g' path) := by
  have h := resolverDispatch_agree d d' g g' path hf hd hg
  simp only [dispatchContainer]
  revert h
  cases resolverDispatch d g path with
  | error e =>
    cases resolverDispatch d' g' path with
    | error e' =>
      intro h
      simp only [Agree] at h
      subst h
      cases e <;> try exact rfl
      cases raises
      · exact hd
      · exact rfl
    | ok x => intro h; exact h.elim
  | ok x =>
    cases resolverDispatch d' g' path with
    | error e' => intro h; exact h.elim
    | ok y => exact fun h => h

theorem dispatchAll_agree (raises : Bool) (gs gs' : List (TgV × Str)) (d d' : Dispatcher) (hf : ∀ m ∈ d.methods, IgnoresSchemes m.2)
    (hd : SameDispatcher d d') (hg : gs.map (fun x => (plainTg x.1, x.2)) = gs'.map fun x => (plainTg x.1, x.2)) :
    Agree SameDispatcher (dispatchAll raises d gs) (dispatchAll raises d' gs') := by
  induction gs generalizing gs' d d' with
  | nil =>
    cases gs' with
    | nil => exact hd
    | cons x r => simp at hg
  | cons x r ih =>
    cases gs' with
    | nil => simp at hg
    | cons y r' =>
      obtain ⟨g, p⟩ := x
      obtain ⟨g', p'⟩ := y
      simp only [List.map_cons, List.cons.injEq, Prod.mk.injEq] at hg
      obtain ⟨⟨h1, rfl⟩, h2⟩ := hg
      have h := dispatchContainer_agree raises d d' g g' p hf hd h1
      simp only [dispatchAll]
      revert h
      cases hx : dispatchContainer raises d g p with
      | error e =>
        cases dispatchContainer raises d' g' p with
        | error e' => exact fun h => h
        | ok y => exact fun h => h.elim
      | ok x =>
        cases dispatchContainer raises d' g' p with
        | error e' => exact fun h => h.elim
        | ok y => exact fun h => ih r' x y (by rw [dispatchContainer_methods hx]; exact hf) h h2

theorem placeText_plain (files : Files) (dir : Str) (t : TextV) :
    plainText (placeText files dir t) = { t with path := textPath dir t.urn, cite := none } := by
  simp only [plainText, placeText, parseTextFile]
  cases files (textPath dir t.urn) with
  | none => rfl
  | some f => simp only; cases readScheme f <;> rfl

theorem buildWork_plain (w : WorkDesc) : plainWork (buildWork w) = buildWork { w with texts := w.texts.map plainText } := by
  have := foldl_addKeyed_map TextV.id plainText plainText_id w.texts []
  simp only [List.map_nil] at this
  simp only [plainWork, buildWork, this]

theorem buildTg_plain (id : Str) (ws : List WorkDesc) :
    plainTg (buildTg id ws) = buildTg id (ws.map fun w => { w with texts := w.texts.map plainText }) := by
  have := foldl_addKeyed_map WorkV.id plainWork plainWork_id (ws.map buildWork) []
  simp only [List.map_nil, List.map_map] at this
  simp only [plainTg, buildTg, List.map_map, ← this]
  congr 2
  apply List.map_congr_left
  intro w _
  exact buildWork_plain w

theorem placeTg_plain (files files' : Files) (g : TgFile) :
    plainTg (buildTg (placeTg files g).id (placeTg files g).works) = plainTg (buildTg (placeTg files' g).id (placeTg files' g).works) := by
  rw [buildTg_plain, buildTg_plain]
  congr 1
  simp only [placeTg, List.map_map]
  apply List.map_congr_left
  intro w _
  simp only [Function.comp, List.map_map]
  congr 1
  apply List.map_congr_left
  intro t _
  simp only [Function.comp, placeText_plain]

theorem parseFiles_agree (files files' : Files) (raises : Bool) (d : Dispatcher) (hf : ∀ m ∈ d.methods, IgnoresSchemes m.2) (found : List TgFile) :
    Agree SameDispatcher (parseFiles files raises d found) (parseFiles files' raises d found) := by
  apply dispatchAll_agree raises _ _ d d hf ⟨rfl, rfl⟩
  simp only [List.map_map]
  apply List.map_congr_left
  intro g _
  simp only [Function.comp, placeTg_plain files files' g]
  rfl

/-! ### Answers -/

theorem filter_map_key {α : Type} (f : α → α) (p : α → Bool) (hp : ∀ x, p (f x) = p x) (l : List α) :
    (l.map f).filter p = (l.filter p).map f := by
  induction l with
  | nil => rfl
  | cons x r ih => simp only [List.map_cons, List.filter_cons, hp]; split <;> simp [ih]

theorem chooseUrn_plain (r : RootV) (u : Urn) : chooseUrn (plainRoot r) u = chooseUrn r u := by
  simp only [chooseUrn, rootTexts_plain]
  split
  · rfl
  · split
    · cases u.upTo 2 with
      | error e => rfl
      | ok w =>
        simp only
        rw [filter_map_key plainText (fun t => startsWith t.id w && t.kind == .edition) (fun _ => rfl)]
        cases (rootTexts r).filter fun t => startsWith t.id w && t.kind == .edition with
        | nil => rfl
        | cons t _ => rfl
    · rfl

theorem getText_plain (r : RootV) (u : Urn) : getText (plainRoot r) u = (getText r u).map plainText := by
  simp only [getText, chooseUrn_plain]
  cases chooseUrn r u with
  | error e => rfl
  | ok s =>
    simp only [objGet_plain]
    cases objGet (.root r) s with
    | error e => rfl
    | ok o => cases o <;> rfl

theorem fetchTextId_plain (files : Files) (same : Same) (r : RootV) (s : Str) :
    fetchTextId files same (plainRoot r) s = (fetchTextId files same r s).map fun x => (x.1, plainText x.2) := by
  simp only [fetchTextId]
  cases Urn.parse s with
  | error e => rfl
  | ok u =>
    simp only [fetchText, chooseUrn_plain, getText_plain]
    cases chooseUrn r u with
    | error e => rfl
    | ok c =>
      cases getText r u with
      | error e => rfl
      | ok t =>
        simp only [Except.map]
        have : (plainText t).path = t.path := rfl
        rw [this]
        cases files t.path with
        | none => rfl
        | some f =>
          cases f with
          | error e => rfl
          | ok root => simp only; cases openText same root <;> rfl

theorem reply_plain (same : Same) (files : Files) (r : RootV) (q : TextAsked) : reply same files (plainRoot r) q = reply same files r q := by
  cases q with
  | node s sub =>
    simp only [reply, resolverNode, fetchTextId_plain]
    cases fetchTextId files same r s with
    | error e => rfl
    | ok x => rfl
  | siblings s sub =>
    simp only [reply, resolverSiblings, fetchTextId_plain]
    cases fetchTextId files same r s with
    | error e => rfl
    | ok x => rfl
  | reffs s level sub =>
    simp only [reply, resolverReffs, fetchTextId_plain]
    cases fetchTextId files same r s with
    | error e => rfl
    | ok x =>
      obtain ⟨x, t⟩ := x
      cases x <;> rfl

theorem reply_same (same : Same) (files : Files) {r r' : RootV} (h : SameButSchemes r r') (q : TextAsked) :
    reply same files r q = reply same files r' q := by
  rw [← reply_plain same files r, ← reply_plain same files r', h]

end Verif.Lemmas
