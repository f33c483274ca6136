import Verif.Spec.LocalParse
import Verif.Props.LocalResolver
import Verif.Props.InventoryParse
/-!
C90: errors while folders are parsed.
-/
namespace Verif.Props
open Verif.Py Verif.Model Verif.Spec

private theorem readLoop_ok {α : Type} (raises : Bool) : ∀ (l : List (Str × Except PyErr α)) (as : List α),
    l.map (·.2) = as.map .ok → readLoop raises l = ([], .ok as)
  | [], as, h => by
    have : as = [] := by simpa using h.symm
    subst this; rfl
  | (f, r) :: rest, as, h => by
    cases as with
    | nil => simp at h
    | cons a as =>
      simp only [List.map_cons, List.cons.injEq] at h
      obtain ⟨h1, h2⟩ := h
      simp only [readLoop, wrapRead, h1, readLoop_ok raises rest as h2, List.append_nil]

private theorem readLoop_bad {α : Type} (raises : Bool) (file : Str) (e : PyErr) :
    ∀ (l : List (Str × Except PyErr α)) (before after : List (Str × Option PyErr)),
      l.map (fun x => (x.1, raisedBy x.2)) = before ++ (file, some e) :: after → (∀ x ∈ before, x.2 = none) →
      readLoop raises l = ([file], .error (if raises then e else .typeError))
  | [], before, after, h, _ => by simp at h
  | (f, r) :: rest, before, after, h, hb => by
    cases before with
    | nil =>
      simp only [List.map_cons, List.nil_append, List.cons.injEq, Prod.mk.injEq] at h
      obtain ⟨⟨rfl, h1⟩, _⟩ := h
      cases r with
      | ok a => simp [raisedBy] at h1
      | error e' =>
        simp only [raisedBy, Option.some.injEq] at h1
        subst h1
        simp [readLoop, wrapRead]
    | cons x before =>
      simp only [List.map_cons, List.cons_append, List.cons.injEq] at h
      obtain ⟨rfl, h2⟩ := h
      have h0 := hb _ (List.mem_cons_self ..)
      cases r with
      | error e' => simp [raisedBy] at h0
      | ok a =>
        simp only [readLoop, wrapRead, readLoop_bad raises file e rest before after h2 (fun x hx => hb x (by simp [hx]))]
        simp

private theorem ok_of_failures {α : Type} : ∀ (l : List (Str × Except PyErr α)), (∀ x ∈ l, raisedBy x.2 = none) →
    ∃ as : List α, l.map (·.2) = as.map .ok
  | [], _ => ⟨[], rfl⟩
  | (f, r) :: rest, h => by
    obtain ⟨as, has⟩ := ok_of_failures rest fun x hx => h x (by simp [hx])
    have := h (f, r) (by simp)
    cases r with
    | error e => simp [raisedBy] at this
    | ok a => exact ⟨a :: as, by simp [has]⟩

private theorem readWorks_ok (raises : Bool) : ∀ (l : List TgRead) (wss : List (List WorkFile)),
    l.map (fun t => t.works.map WorkRead.parsed) = wss.map (fun ws => ws.map .ok) → readWorks raises l = ([], .ok wss)
  | [], wss, h => by
    have : wss = [] := by simpa using h.symm
    subst this; rfl
  | t :: rest, wss, h => by
    cases wss with
    | nil => simp at h
    | cons ws wss =>
      simp only [List.map_cons, List.cons.injEq] at h
      have := readLoop_ok raises (t.works.map fun w => (w.file, w.parsed)) ws (by rw [List.map_map]; exact h.1)
      simp only [readWorks, this, readWorks_ok raises rest wss h.2, List.append_nil]

private theorem readWorks_bad (raises : Bool) (file : Str) (e : PyErr) :
    ∀ (l : List TgRead) (before after : List (Str × Option PyErr)),
      (l.flatMap fun t => t.works.map fun w => (w.file, raisedBy w.parsed)) = before ++ (file, some e) :: after → (∀ x ∈ before, x.2 = none) →
      readWorks raises l = ([file], .error (if raises then e else .typeError))
  | [], before, after, h, _ => by simp at h
  | t :: rest, before, after, h, hb => by
    rw [List.flatMap_cons] at h
    have hm : (t.works.map fun w => (w.file, w.parsed)).map (fun x => (x.1, raisedBy x.2)) = t.works.map fun w => (w.file, raisedBy w.parsed) := by
      simp
    rcases List.append_eq_append_iff.1 h with ⟨x, h1, h2⟩ | ⟨x, h1, h2⟩
    · have hok : ∀ y ∈ t.works.map (fun w => (w.file, w.parsed)), raisedBy y.2 = none := by
        intro y hy
        have : (y.1, raisedBy y.2) ∈ t.works.map fun w => (w.file, raisedBy w.parsed) := by
          rw [← hm]; exact List.mem_map_of_mem hy
        exact hb (y.1, raisedBy y.2) (by rw [h1]; exact List.mem_append_left _ this)
      obtain ⟨as, has⟩ := ok_of_failures _ hok
      have ih := readWorks_bad raises file e rest x after h2 (fun y hy => hb y (by rw [h1]; simp [hy]))
      simp only [readWorks, readLoop_ok raises _ as has, ih]
      simp
    · cases x with
      | nil =>
        simp only [List.append_nil] at h1
        simp only [List.nil_append] at h2
        have hok : ∀ y ∈ t.works.map (fun w => (w.file, w.parsed)), raisedBy y.2 = none := by
          intro y hy
          have : (y.1, raisedBy y.2) ∈ t.works.map fun w => (w.file, raisedBy w.parsed) := by
            rw [← hm]; exact List.mem_map_of_mem hy
          exact hb (y.1, raisedBy y.2) (by rw [← h1]; exact this)
        obtain ⟨as, has⟩ := ok_of_failures _ hok
        have ih := readWorks_bad raises file e rest [] after (by rw [← h2]; rfl) (by simp)
        simp only [readWorks, readLoop_ok raises _ as has, ih]
        simp
      | cons y x =>
        simp only [List.cons_append, List.cons.injEq] at h2
        obtain ⟨rfl, h2⟩ := h2
        have := readLoop_bad raises file e (t.works.map fun w => (w.file, w.parsed)) before x (by rw [hm, h1]) hb
        simp only [readWorks, this]

/-- C90. When a metadata file of a textgroup or of a work cannot be read, parsing stops at the first such file: its name is logged and nothing
else, an exception leaves `parse`, and the collection is as it was, without any text of the files that could be read. The exception is that of
the file, or `TypeError` when `RAISE_ON_GENERIC_PARSING_ERROR` is off. -/
theorem C90_bad_file (files : Files) (raiseParsing raiseUndispatched : Bool) (d : Dispatcher) (found : List TgRead) (file : Str) (e : PyErr)
    (h : FirstBad found file e) :
    parseRun files raiseParsing raiseUndispatched d found =
      { log := [file], after := some d, error := some (if raiseParsing then e else .typeError) } := by
  obtain ⟨before, after, h, hb⟩ := h
  have hm : (found.map fun t => (t.file, t.parsed)).map (fun x => (x.1, raisedBy x.2)) = found.map fun t => (t.file, raisedBy t.parsed) := by
    simp
  have good : (∀ y ∈ found.map (fun t => (t.file, raisedBy t.parsed)), y.2 = none) →
      ∃ ids, readLoop raiseParsing (found.map fun t => (t.file, t.parsed)) = ([], .ok ids) := by
    intro hh
    obtain ⟨ids, hids⟩ := ok_of_failures (found.map fun t => (t.file, t.parsed)) (by
      intro y hy
      refine hh (y.1, raisedBy y.2) ?_
      rw [← hm]; exact List.mem_map_of_mem hy)
    exact ⟨ids, readLoop_ok raiseParsing _ ids hids⟩
  unfold readOrder at h
  rcases List.append_eq_append_iff.1 h with ⟨x, h1, h2⟩ | ⟨x, h1, h2⟩
  · obtain ⟨ids, hids⟩ := good fun y hy => hb y (by rw [h1]; simp only [List.mem_append]; exact Or.inl hy)
    have := readWorks_bad raiseParsing file e found x after h2 (fun y hy => hb y (by rw [h1]; simp [hy]))
    simp only [parseRun, hids, this]
    simp
  · cases x with
    | nil =>
      simp only [List.append_nil] at h1
      simp only [List.nil_append] at h2
      obtain ⟨ids, hids⟩ := good fun y hy => hb y (by rw [← h1]; exact hy)
      have := readWorks_bad raiseParsing file e found [] after (by rw [← h2]; rfl) (by simp)
      simp only [parseRun, hids, this]
      simp
    | cons y x =>
      simp only [List.cons_append, List.cons.injEq] at h2
      obtain ⟨rfl, h2⟩ := h2
      have := readLoop_bad raiseParsing file e (found.map fun t => (t.file, t.parsed)) before x (by rw [hm, h1]) hb
      simp only [parseRun, this]

/-- The second textgroup has a work whose file cannot be read; the textgroup before it is lost too. -/
example : FirstBad [⟨"a".toList, .ok "gg".toList, [⟨"a/w".toList, .ok ⟨"ggw".toList, [], [], []⟩⟩]⟩,
      ⟨"b".toList, .ok "hh".toList, [⟨"b/w".toList, .error .valueError⟩, ⟨"b/v".toList, .error .keyError⟩]⟩] "b/w".toList .valueError :=
  ⟨[("a".toList, none), ("b".toList, none), ("a/w".toList, none)], [("b/v".toList, some .keyError)], rfl, by simp⟩

private theorem zip_described : ∀ (found : List TgRead) (gs : List TgFile), found.map TgRead.file = gs.map TgFile.path →
    ((found.map TgRead.file).zip ((gs.map TgFile.id).zip (gs.map TgFile.works))).map (fun x => (⟨x.2.1, x.2.2, x.1⟩ : TgFile)) = gs := by
  intro found gs h
  rw [h]
  clear h
  induction gs with
  | nil => rfl
  | cons g gs ih => simp only [List.map_cons, List.zip_cons_cons, ih]

private theorem parseRun_read (files : Files) (rp ru : Bool) (d : Dispatcher) {found : List TgRead} {gs : List TgFile} (h : AllRead found gs) :
    parseRun files rp ru d found =
      dispatchRun ru d ((gs.map (placeTg files)).map fun t => (buildTg t.id t.works, t.path)) := by
  have h1 := readLoop_ok rp (found.map fun t => (t.file, t.parsed)) (gs.map TgFile.id) (by
    rw [List.map_map, List.map_map]; exact h.ids)
  have h2 := readWorks_ok rp found (gs.map TgFile.works) (by rw [List.map_map]; exact h.works)
  have h3 := zip_described found gs h.paths
  simp only [parseRun, h1, h2, List.nil_append]
  have : ((found.map TgRead.file).zip ((gs.map TgFile.id).zip (gs.map TgFile.works))).map (fun x => placeTg files ⟨x.2.1, x.2.2, x.1⟩) =
      gs.map (placeTg files) := by
    conv => rhs; rw [← h3]
    rw [List.map_map]; rfl
  rw [this]

private theorem dispatchRun_all (raises : Bool) : ∀ (l : List (TgV × Str)) (d : Dispatcher),
    (∀ d', dispatchAll raises d l = .ok d' → (dispatchRun raises d l).after = some d' ∧ (dispatchRun raises d l).error = none) ∧
    (∀ e, dispatchAll raises d l = .error e → (dispatchRun raises d l).error = some e)
  | [], d => by simp [dispatchAll, dispatchRun]
  | (g, path) :: rest, d => by
    simp only [dispatchAll, dispatchRun, dispatchContainer]
    cases hh : resolverDispatch d g path with
    | ok d' => exact dispatchRun_all raises rest d'
    | error e =>
      by_cases he : e = .undispatched
      · subst he
        cases raises with
        | true => simp
        | false => simpa using dispatchRun_all false rest d
      · cases e <;> simp at he ⊢

private theorem dispatchRun_strict (raises : Bool) : ∀ (l : List (TgV × Str)) (d d' : Dispatcher), dispatchAll true d l = .ok d' →
    dispatchRun raises d l = { log := [], after := some d', error := none }
  | [], d, d', h => by simp [dispatchAll] at h; simp [dispatchRun, h]
  | (g, path) :: rest, d, d', h => by
    simp only [dispatchAll, dispatchContainer] at h
    simp only [dispatchRun]
    cases hh : resolverDispatch d g path with
    | ok d1 => rw [hh] at h; exact dispatchRun_strict raises rest d1 d' h
    | error e => rw [hh] at h; cases e <;> simp at h

/-- C90. When every file is read, the result is that of C44 and C82, and `RAISE_ON_GENERIC_PARSING_ERROR` plays no part. -/
theorem C90_all_read (files : Files) (raiseParsing raiseUndispatched : Bool) (d : Dispatcher) (found : List TgRead) (gs : List TgFile)
    (h : AllRead found gs) :
    (∀ d', parseFiles files raiseUndispatched d gs = .ok d' →
      (parseRun files raiseParsing raiseUndispatched d found).after = some d' ∧
      (parseRun files raiseParsing raiseUndispatched d found).error = none) ∧
    (∀ e, parseFiles files raiseUndispatched d gs = .error e → (parseRun files raiseParsing raiseUndispatched d found).error = some e) := by
  rw [parseRun_read files raiseParsing raiseUndispatched d h]
  exact dispatchRun_all raiseUndispatched _ d

example : AllRead [⟨"a".toList, .ok "gg".toList, [⟨"a/w".toList, .ok ⟨"ggw".toList, [], [exText "ggwt"], "a".toList⟩⟩]⟩]
    [⟨"gg".toList, [⟨"ggw".toList, [], [exText "ggwt"], "a".toList⟩], "a".toList⟩] := ⟨rfl, rfl, rfl⟩

/-- C90. A new resolver without a dispatcher has one inventory, and parsing folders whose files can all be read puts every text described
into it, under the identifiers of its textgroup and its work; nothing is logged about metadata files, whatever the two switches say. -/
theorem C90_default_resolver (lv : Levels) (h0 : lv.level "defaultTic".toList = 0) (h1 : lv.level "default".toList = 1) (files : Files)
    (raiseParsing raiseUndispatched : Bool) (found : List TgRead) (gs : List TgFile) (h : AllRead found gs)
    (hfit : ∀ g ∈ gs, FitsDesc lv (placeTg files g)) (honce : ∀ g ∈ gs, (g.works.map WorkFile.id).Nodup) :
    ∃ d', newResolver files raiseParsing raiseUndispatched none (some found) = .ok { log := [], after := some d', error := none } ∧
      d'.root.invs.map InvV.id = ["default".toList] ∧
      ∀ g ∈ gs, ∀ w ∈ g.works, ∀ t ∈ w.texts, ∃ t', HoldsText d'.root g.id w.id t' ∧ t'.id = t.id := by
  let d0 : Dispatcher := { root := defaultRoot, methods := [("default".toList, fun _ _ => .ok true)] }
  have hd : resolverDispatcher none = .ok d0 := rfl
  have hroot : FitsRoot lv d0.root :=
    ⟨h0, by simp [d0, defaultRoot], by intro i hi; simp [d0, defaultRoot] at hi; subst hi; exact h1, by simp [d0, defaultRoot],
      by intro i hi; simp [d0, defaultRoot] at hi; subst hi; simp⟩
  obtain ⟨d', hp, hinv, htexts⟩ := C44_parse lv true d0 "default".toList [] rfl hroot (gs.map (placeTg files))
    (by intro x hx; obtain ⟨g, hg, rfl⟩ := List.mem_map.1 hx; exact hfit g hg)
    (by intro x _; exact ⟨"default".toList, by simp [d0, defaultRoot], .inr ⟨rfl, by simp⟩⟩)
    (by
      intro x hx; obtain ⟨g, hg, rfl⟩ := List.mem_map.1 hx
      have := honce g hg
      simpa [placeTg, List.map_map, Function.comp_def] using this)
  refine ⟨d', ?_, hinv, ?_⟩
  · simp only [newResolver, hd]
    rw [parseRun_read files raiseParsing raiseUndispatched d0 h]
    congr 1
    exact dispatchRun_strict raiseUndispatched _ d0 d' hp
  · intro g hg w hw t ht
    exact htexts (placeTg files g) (List.mem_map_of_mem hg) ⟨w.id, w.lang, w.texts.map (placeText files w.dir)⟩
      (List.mem_map.2 ⟨w, hw, rfl⟩) (placeText files w.dir t) (List.mem_map_of_mem ht)

/-- Levels that fit the default collection. -/
example : ∃ lv : Levels, lv.level "defaultTic".toList = 0 ∧ lv.level "default".toList = 1 ∧
    FitsDesc lv (placeTg (fun _ => none) ⟨"gg".toList, [⟨"ggw".toList, [], [exText "ggwt"], "a".toList⟩], "a".toList⟩) :=
  ⟨{ level := fun s => if s = "defaultTic".toList then 0 else if s = "default".toList then 1 else s.length, owner := List.take 2 },
    by decide +kernel, by decide +kernel,
    { tg := by decide +kernel
      work := by intro w hw; simp [placeTg] at hw; subst hw; exact ⟨by decide +kernel, by decide +kernel⟩
      text := by
        intro w hw t ht
        simp [placeTg] at hw; subst hw
        simp at ht; subst ht
        decide +kernel }⟩

/-- C90. A new resolver takes the dispatcher that it is given, and does nothing with it unless it parses. -/
theorem C90_given (files : Files) (raiseParsing raiseUndispatched : Bool) (d : Dispatcher) (found : List TgRead) :
    newResolver files raiseParsing raiseUndispatched (some d) none = .ok { log := [], after := some d, error := none } ∧
    newResolver files raiseParsing raiseUndispatched (some d) (some found) = .ok (parseRun files raiseParsing raiseUndispatched d found) :=
  ⟨rfl, rfl⟩

/-- A textgroup that is not there yet, for which the last filter that does not decline raises `UndispatchedTextError`. -/
theorem undispatched_of_filter {d : Dispatcher} {g : TgV} {path : Str} (hn : objContains (.root d.root) g.id = false) (pre post : List (Str × Filter))
    (name : Str) (f : Filter) (hm : d.methods = pre ++ (name, f) :: post) (hf : f g path = .error .undispatched) (hp : ∀ x ∈ post, x.2 g path = .ok false) :
    resolverDispatch d g path = .error .undispatched := by
  have key : ∀ (l : List (Str × Filter)), (∀ x ∈ l, x.2 g path = .ok false) → ∀ r, dispatchLoop d.root g path (l ++ (name, f) :: r) = .error .undispatched := by
    intro l
    induction l with
    | nil => intro _ r; simp [dispatchLoop, hf]
    | cons x l ih =>
      intro hl r
      obtain ⟨n, m⟩ := x
      have := hl (n, m) (by simp)
      simp only at this
      simp only [List.cons_append, dispatchLoop, this]
      exact ih (fun y hy => hl y (by simp [hy])) r
  unfold resolverDispatch
  simp only [hn, dispatch, hm]
  rw [List.reverse_append, List.reverse_cons, List.append_assoc, List.singleton_append,
    key post.reverse (by intro x hx; exact hp x (by simpa using hx))]
  simp

/-- C90. A textgroup that the filters refuse: with `RAISE_ON_UNDISPATCHED` parsing stops there, with what was dispatched before in the
collection; without it, it is logged and passed over, and the others are dispatched as if it were not there. -/
theorem C90_refused (d : Dispatcher) (g : TgV) (path : Str) (rest : List (TgV × Str))
    (hn : ∀ o ∈ objDesc (.root d.root) ++ [.root d.root], o.id ≠ g.id)
    (pre post : List (Str × Filter)) (name : Str) (f : Filter) (hm : d.methods = pre ++ (name, f) :: post) (hf : f g path = .error .undispatched)
    (hp : ∀ x ∈ post, x.2 g path = .ok false) :
    dispatchRun true d ((g, path) :: rest) = { log := [path], after := some d, error := some .undispatched } ∧
    (dispatchRun false d ((g, path) :: rest)).log = path :: (dispatchRun false d rest).log ∧
    (dispatchRun false d ((g, path) :: rest)).after = (dispatchRun false d rest).after ∧
    (dispatchRun false d ((g, path) :: rest)).error = (dispatchRun false d rest).error := by
  have hu := undispatched_of_filter (d := d) (g := g) (path := path)
    (by
      unfold objContains
      rw [List.any_eq_false]
      intro o ho
      simpa using hn o ho) pre post name f hm hf hp
  simp [dispatchRun, hu]

example : (dispatchRun false ⟨exRoot, [(['i'], fun _ _ => .ok true), (['i'], fun g _ => if g.id = "hh".toList then .error .undispatched else .ok false)]⟩
      [(exTg "gg" [], "a".toList), (exTg "hh" [], "b".toList), (exTg "kk" [], "c".toList)]).log = ["b".toList] ∧
    (dispatchRun false ⟨exRoot, [(['i'], fun _ _ => .ok true), (['i'], fun g _ => if g.id = "hh".toList then .error .undispatched else .ok false)]⟩
      [(exTg "gg" [], "a".toList), (exTg "hh" [], "b".toList), (exTg "kk" [], "c".toList)]).after.map (fun d => d.root.invs.map fun i => i.tgs.map TgV.id) =
      some [["gg".toList, "kk".toList]] := by decide +kernel

/-- C90 fails: with `RAISE_ON_GENERIC_PARSING_ERROR` off a file that cannot be read is not passed over. Parsing stops all the same, with
`TypeError` instead of the exception of the file, whatever the files. -/
theorem C90_fails_not_passed_over (files : Files) (raiseUndispatched : Bool) (d : Dispatcher) (found : List TgRead)
    (h : ∃ x ∈ readOrder found, x.2 ≠ none) :
    (parseRun files false raiseUndispatched d found).error = some .typeError ∧ (parseRun files false raiseUndispatched d found).after = some d := by
  have : ∃ file e, FirstBad found file e := by
    unfold FirstBad
    generalize readOrder found = l at h
    induction l with
    | nil => simp at h
    | cons x l ih =>
      obtain ⟨file, o⟩ := x
      cases o with
      | some e => exact ⟨file, e, [], l, rfl, by simp⟩
      | none =>
        obtain ⟨y, hy, hne⟩ := h
        obtain ⟨f, e, before, after, e1, e2⟩ := ih (by
          rcases List.mem_cons.1 hy with rfl | hy
          · simp at hne
          · exact ⟨y, hy, hne⟩)
        exact ⟨f, e, (file, none) :: before, after, by simp [e1], by
          intro x hx
          rcases List.mem_cons.1 hx with rfl | hx
          · rfl
          · exact e2 x hx⟩
  obtain ⟨file, e, hb⟩ := this
  simp [C90_bad_file files false raiseUndispatched d found file e hb]

end Verif.Props
