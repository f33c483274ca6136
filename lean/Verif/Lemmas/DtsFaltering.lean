import Verif.Spec.DtsHarvest
/-!
Lemmas for C102: what is done with an endpoint that falters.
-/
namespace Verif.Lemmas
open Verif.Py Verif.Model Verif.Spec

/-- As `StopsAtFailure`, with what is needed to go on. -/
def Follows {γ α : Type} (e' : DtsTexts γ) (log : List DocReq) (run' run : List DocReq × Except PyErr α) : Prop :=
  (run' = run ∧ ∃ made, run.1 = log ++ made ∧ ∀ a, run.2 = .ok a → ∀ q ∈ made, ∀ y, ¬ FailsAt e' q y) ∨
  ∃ made r later x, run.1 = log ++ made ++ r :: later ∧ run' = (log ++ made ++ [r], .error x) ∧ FailsAt e' r x ∧
    ∀ q ∈ made, ∀ y, ¬ FailsAt e' q y

theorem Follows.stops {γ α : Type} {e' : DtsTexts γ} {log : List DocReq} {run' run : List DocReq × Except PyErr α} (h : Follows e' log run' run) :
    StopsAtFailure e' log run' run := by
  rcases h with ⟨h, _⟩ | ⟨made, r, later, x, h1, h2, h3, h4⟩
  · exact .inl h
  · exact .inr ⟨made, r, later, x, by rw [← h1], h2, h3, h4⟩

theorem Follows.extends {γ α : Type} {e' : DtsTexts γ} {log : List DocReq} {run' run : List DocReq × Except PyErr α} (h : Follows e' log run' run) :
    ∃ made, run.1 = log ++ made := by
  rcases h with ⟨_, made, h, _⟩ | ⟨made, r, later, x, h1, _⟩
  · exact ⟨made, h⟩
  · exact ⟨made ++ r :: later, by rw [h1, List.append_assoc]⟩

/-- Going on with what was answered. -/
def goOn {α β : Type} (p : List DocReq × Except PyErr α) (k : List DocReq → α → List DocReq × Except PyErr β) : List DocReq × Except PyErr β :=
  match p with
  | (log, .error x) => (log, .error x)
  | (log, .ok a) => k log a

theorem follows_done {γ α : Type} (e' : DtsTexts γ) (log : List DocReq) (r : Except PyErr α) : Follows e' log (log, r) (log, r) :=
  .inl ⟨rfl, [], by simp, by simp⟩

theorem follows_goOn {γ α β : Type} {e' : DtsTexts γ} {log : List DocReq} {p' p : List DocReq × Except PyErr α}
    {k' k : List DocReq → α → List DocReq × Except PyErr β} (h : Follows e' log p' p) (hk : ∀ log a, p = (log, .ok a) → Follows e' log (k' log a) (k log a)) :
    Follows e' log (goOn p' k') (goOn p k) := by
  obtain ⟨l, out⟩ := p
  rcases h with ⟨rfl, made, h1, h2⟩ | ⟨made, r, later, x, h1, rfl, h3, h4⟩
  · cases out with
    | error x => exact .inl ⟨rfl, made, h1, by intro a h; cases h⟩
    | ok a =>
      have hm := h2 a rfl
      simp only at h1
      subst h1
      rcases hk _ a rfl with ⟨g, made', g1, g2⟩ | ⟨made', r, later, x, g1, g2, g3, g4⟩
      · refine .inl ⟨g, made ++ made', by simp only [goOn]; rw [g1, List.append_assoc], fun b hb q hq => ?_⟩
        rcases List.mem_append.1 hq with hq | hq
        · exact hm q hq
        · exact g2 b hb q hq
      · refine .inr ⟨made ++ made', r, later, x, by simp only [goOn]; rw [g1]; simp, by simp only [goOn]; rw [g2]; simp, g3, fun q hq => ?_⟩
        rcases List.mem_append.1 hq with hq | hq
        · exact hm q hq
        · exact g4 q hq
  · cases out with
    | error y => exact .inr ⟨made, r, later, x, h1, rfl, h3, h4⟩
    | ok a =>
      simp only at h1
      obtain ⟨more, hm⟩ := (hk _ a rfl).extends
      exact .inr ⟨made, r, later ++ more, x, by simp only [goOn]; rw [hm, h1]; simp, rfl, h3, h4⟩

/-! ## Documents -/

theorem follows_resolve {γ : Type} {e' e : DtsTexts γ} (h : Falters e' e) (log : List DocReq) (id : Str) (ref : DtsRefArg) :
    Follows e' log (resolveText e' log id ref) (resolveText e log id ref) := by
  simp only [resolveText, resolveDoc, h.docQuery, h.bodies]
  rcases h.documents (getDocument e.docQuery id ref) with hd | ⟨x, hd⟩
  · rw [hd]
    refine .inl ⟨rfl, [.document (getDocument e.docQuery id ref)], ?_, ?_⟩
    · split <;> rename_i hh <;> rw [← (Prod.mk.inj hh).1]
    · intro a ha q hq y hy
      simp only [List.mem_singleton] at hq
      subst hq
      simp only [FailsAt, hd] at hy
      rw [hy] at ha
      cases ha
  · rw [hd]
    refine .inr ⟨[], .document (getDocument e.docQuery id ref), [], x, ?_, ?_, hd, by simp⟩
    · split <;> rename_i hh <;> rw [← (Prod.mk.inj hh).1] <;> simp
    · simp

theorem node_goOn {γ : Type} (e : DtsTexts γ) (log : List DocReq) (t : TextDoc γ) (ref : DtsRefArg) :
    t.node e log ref = goOn (resolveText e log t.doc.id ref) fun log o => (log, .ok { o with doc := { o.doc with coll := t.doc.coll } }) := by
  simp only [TextDoc.node, goOn]
  split <;> rename_i h <;> rw [h]

theorem follows_node {γ : Type} {e' e : DtsTexts γ} (h : Falters e' e) (log : List DocReq) (t : TextDoc γ) (ref : DtsRefArg) :
    Follows e' log (t.node e' log ref) (t.node e log ref) := by
  rw [node_goOn, node_goOn]
  exact follows_goOn (follows_resolve h log _ ref) fun log a _ => follows_done e' log _

theorem follows_sibling {γ : Type} {e' e : DtsTexts γ} (h : Falters e' e) (log : List DocReq) (t : TextDoc γ) (r : Option DtsRef) :
    Follows e' log (t.sibling e' log r) (t.sibling e log r) := by
  cases r with
  | none => exact follows_done e' log _
  | some r =>
    have hs : ∀ e : DtsTexts γ, t.sibling e log (some r) = goOn (t.node e log r.arg) fun log o => (log, .ok (some o)) := by
      intro e
      simp only [TextDoc.sibling, goOn]
      split <;> rename_i h <;> rw [h]
    rw [hs, hs]
    exact follows_goOn (follows_node h log t _) fun log a _ => follows_done e' log _

theorem follows_nodes {γ : Type} {e' e : DtsTexts γ} (h : Falters e' e) (t : TextDoc γ) : ∀ (is : List RefItem) (log : List DocReq),
    Follows e' log (t.nodes e' log is) (t.nodes e log is)
  | [], log => follows_done e' log _
  | i :: is, log => by
    have hs : ∀ e : DtsTexts γ, t.nodes e log (i :: is) =
        goOn (t.node e log i.arg) fun log o => goOn (t.nodes e log is) fun log os => (log, .ok (o :: os)) := by
      intro e
      simp only [TextDoc.nodes, goOn]
      split <;> rename_i h <;> rw [h]
      dsimp only
      split <;> rename_i h <;> rw [h]
    rw [hs, hs]
    exact follows_goOn (follows_node h log t _) fun log o _ => follows_goOn (follows_nodes h t is log) fun log os _ => follows_done e' log _

theorem follows_openAll {γ : Type} {e' e : DtsTexts γ} (h : Falters e' e) (id : Str) : ∀ (is : List RefItem) (log : List DocReq),
    Follows e' log (openAll e' id log is) (openAll e id log is)
  | [], log => follows_done e' log _
  | i :: is, log => by
    have hs : ∀ e : DtsTexts γ, openAll e id log (i :: is) =
        goOn (resolveText e log id i.arg) fun log o => goOn (openAll e id log is) fun log os => (log, .ok (o :: os)) := by
      intro e
      simp only [openAll, goOn]
      split <;> rename_i h <;> rw [h]
      dsimp only
      split <;> rename_i h <;> rw [h]
    rw [hs, hs]
    exact follows_goOn (follows_resolve h log _ _) fun log o _ => follows_goOn (follows_openAll h id is log) fun log os _ => follows_done e' log _

theorem follows_readNext {γ : Type} {e' e : DtsTexts γ} (h : Falters e' e) : ∀ (fuel : Nat) (t : TextDoc γ) (log : List DocReq),
    Follows e' log (readNext e' fuel log t) (readNext e fuel log t)
  | 0, t, log => follows_done e' log _
  | fuel + 1, t, log => by
    have hs : ∀ e : DtsTexts γ, readNext e (fuel + 1) log t = goOn (t.sibling e log t.doc.next) fun log o =>
        match o with
        | none => (log, .ok [t])
        | some o => goOn (readNext e fuel log o) fun log os => (log, .ok (t :: os)) := by
      intro e
      simp only [readNext, goOn, TextDoc.goNext]
      split <;> rename_i h <;> rw [h]
      dsimp only
      split <;> rename_i h <;> rw [h]
    rw [hs, hs]
    refine follows_goOn (follows_sibling h log t _) fun log o _ => ?_
    cases o with
    | none => exact follows_done e' log _
    | some o => exact follows_goOn (follows_readNext h fuel o log) fun log os _ => follows_done e' log _

theorem follows_readPrev {γ : Type} {e' e : DtsTexts γ} (h : Falters e' e) : ∀ (fuel : Nat) (t : TextDoc γ) (log : List DocReq),
    Follows e' log (readPrev e' fuel log t) (readPrev e fuel log t)
  | 0, t, log => follows_done e' log _
  | fuel + 1, t, log => by
    have hs : ∀ e : DtsTexts γ, readPrev e (fuel + 1) log t = goOn (t.sibling e log t.doc.prev) fun log o =>
        match o with
        | none => (log, .ok [t])
        | some o => goOn (readPrev e fuel log o) fun log os => (log, .ok (t :: os)) := by
      intro e
      simp only [readPrev, goOn, TextDoc.goPrev]
      split <;> rename_i h <;> rw [h]
      dsimp only
      split <;> rename_i h <;> rw [h]
    rw [hs, hs]
    refine follows_goOn (follows_sibling h log t _) fun log o _ => ?_
    cases o with
    | none => exact follows_done e' log _
    | some o => exact follows_goOn (follows_readPrev h fuel o log) fun log os _ => follows_done e' log _

theorem follows_readDts {γ : Type} {e' e : DtsTexts γ} (h : Falters e' e) (id : Str) (fuel : Nat) (log : List DocReq) (ref : DtsRefArg) :
    Follows e' log (readDts e' id fuel log ref) (readDts e id fuel log ref) := by
  have hs : ∀ e : DtsTexts γ, readDts e id fuel log ref = goOn (resolveText e log id ref) fun log t => readNext e fuel log t := by
    intro e
    simp only [readDts, goOn]
    split <;> rename_i h <;> rw [h]
  rw [hs, hs]
  exact follows_goOn (follows_resolve h log _ _) fun log t _ => follows_readNext h fuel t log

theorem follows_readDtsBack {γ : Type} {e' e : DtsTexts γ} (h : Falters e' e) (id : Str) (fuel : Nat) (log : List DocReq) (ref : DtsRefArg) :
    Follows e' log (readDtsBack e' id fuel log ref) (readDtsBack e id fuel log ref) := by
  have hs : ∀ e : DtsTexts γ, readDtsBack e id fuel log ref = goOn (resolveText e log id ref) fun log t => readPrev e fuel log t := by
    intro e
    simp only [readDtsBack, goOn]
    split <;> rename_i h <;> rw [h]
  rw [hs, hs]
  exact follows_goOn (follows_resolve h log _ _) fun log t _ => follows_readPrev h fuel t log

/-! ## Lists -/

/-- Requests of lists among those of texts. -/
def asNav {α : Type} (log : List DocReq) (r : List (List (Str × List Str)) × Except PyErr α) : List DocReq × Except PyErr α :=
  (log ++ r.1.map .navigation, r.2)

theorem follows_loop {γ : Type} {e' e : DtsTexts γ} (h : Falters e' e) (query : List (Str × List Str)) (q : NavQuery) :
    ∀ (fuel : Nat) (page : Option Str) (refs : List DtsRef) r, reffsLoop e.navigation query q fuel page refs = some r →
      ∃ r', reffsLoop e'.navigation query q fuel page refs = some r' ∧ ∀ log, Follows e' log (asNav log r') (asNav log r)
  | 0, _, _, _, hr => by cases hr
  | fuel + 1, page, refs, r, hr => by
    rw [reffsLoop] at hr ⊢
    rcases h.navigation (navRequest query q page) with hd | ⟨x, hd⟩
    · simp only [hd]
      cases h1 : e.navigation (navRequest query q page) with
      | error x =>
        simp only [h1] at hr
        cases hr
        exact ⟨_, rfl, fun log => .inl ⟨rfl, [.navigation (navRequest query q page)], rfl, by intro a h; cases h⟩⟩
      | ok pg =>
        have hok : ∀ y, ¬ FailsAt e' (.navigation (navRequest query q page)) y := by
          intro y hy
          simp only [FailsAt, hd, h1] at hy
          cases hy
        have hone : ∀ (log : List DocReq) (out : Except PyErr (List DtsRef × Option Int × Option Str)),
            Follows e' log (asNav log ([navRequest query q page], out)) (asNav log ([navRequest query q page], out)) := by
          intro log out
          refine .inl ⟨rfl, [.navigation (navRequest query q page)], rfl, ?_⟩
          intro a _ q hq
          simp only [List.mem_singleton] at hq
          subst hq
          exact hok
        cases pg with
        | none =>
          simp only [h1] at hr
          cases hr
          exact ⟨_, rfl, fun log => hone log _⟩
        | some pg =>
          simp only [h1] at hr ⊢
          cases h2 : parseRefs pg.citeType pg.members with
          | error x => simp only [h2] at hr ⊢; cases hr; exact ⟨_, rfl, fun log => hone log _⟩
          | ok rs =>
            simp only [h2] at hr ⊢
            cases h3 : pg.next with
            | none => simp only [h3] at hr ⊢; cases hr; exact ⟨_, rfl, fun log => hone log _⟩
            | some link =>
              simp only [h3] at hr ⊢
              cases h4 : regexPage link with
              | none => simp only [h4] at hr ⊢; cases hr; exact ⟨_, rfl, fun log => hone log _⟩
              | some p =>
                simp only [h4] at hr ⊢
                cases h5 : reffsLoop e.navigation query q fuel (some p) (refs ++ rs) with
                | none => simp only [h5] at hr; cases hr
                | some r1 =>
                  obtain ⟨l, out⟩ := r1
                  simp only [h5, Option.some.injEq] at hr
                  subst hr
                  obtain ⟨⟨l', out'⟩, g1, g2⟩ := follows_loop h query q fuel (some p) (refs ++ rs) _ h5
                  refine ⟨(navRequest query q page :: l', out'), by simp only [g1], fun log => ?_⟩
                  rcases g2 (log ++ [.navigation (navRequest query q page)]) with ⟨k1, made, k2, k3⟩ | ⟨made, r, later, x, k1, k2, k3, k4⟩
                  · simp only [asNav, Prod.mk.injEq, List.append_assoc, List.append_cancel_left_eq] at k1 k2 k3
                    refine .inl ⟨?_, .navigation (navRequest query q page) :: made, ?_, ?_⟩
                    · simp only [asNav, Prod.mk.injEq, List.map_cons, List.append_cancel_left_eq, List.cons.injEq, true_and]
                      exact ⟨by simpa using k1.1, k1.2⟩
                    · simp only [asNav, List.map_cons]
                      rw [show l.map DocReq.navigation = made by simpa using k2]
                    · intro a ha q hq
                      rcases List.mem_cons.1 hq with rfl | hq
                      · exact hok
                      · exact k3 a ha q hq
                  · simp only [asNav, Prod.mk.injEq] at k1 k2
                    refine .inr ⟨.navigation (navRequest query q page) :: made, r, later, x, ?_, ?_, k3, ?_⟩
                    · simp only [asNav, List.map_cons]
                      simpa using k1
                    · simp only [asNav, Prod.mk.injEq, List.map_cons]
                      exact ⟨by simpa using k2.1, k2.2⟩
                    · intro q hq
                      rcases List.mem_cons.1 hq with rfl | hq
                      · exact hok
                      · exact k4 q hq
    · simp only [hd]
      refine ⟨_, rfl, fun log => .inr ⟨[], .navigation (navRequest query q page), ?_⟩⟩
      have : ∃ later, r.1 = navRequest query q page :: later := by
        clear hd
        split at hr
        · cases hr; exact ⟨[], rfl⟩
        · cases hr; exact ⟨[], rfl⟩
        · split at hr
          · cases hr; exact ⟨[], rfl⟩
          · split at hr
            · cases hr; exact ⟨[], rfl⟩
            · split at hr
              · cases hr; exact ⟨[], rfl⟩
              · split at hr
                · cases hr
                · cases hr; exact ⟨_, rfl⟩
      obtain ⟨later, hl⟩ := this
      exact ⟨later.map .navigation, x, by simp [asNav, hl], by simp [asNav], hd, by simp⟩

theorem follows_reffs {γ : Type} {e' e : DtsTexts γ} (h : Falters e' e) (q : NavQuery) {r : List (List (Str × List Str)) × Except PyErr DtsRefSet}
    (hr : dtsReffs e.navigation e.navQuery q e.turns = some r) :
    ∃ r', dtsReffs e'.navigation e'.navQuery q e'.turns = some r' ∧ ∀ log, Follows e' log (asNav log r') (asNav log r) := by
  rw [h.navQuery, h.turns]
  cases h1 : reffsLoop e.navigation e.navQuery q e.turns none [] with
  | none => rw [dtsReffs, h1] at hr; cases hr
  | some r1 =>
    obtain ⟨r2, g1, g2⟩ := follows_loop h e.navQuery q e.turns none [] r1 h1
    let k : List DtsRef × Option Int × Option Str → DtsRefSet := fun a => mkRefSet a.1 a.2.1 (setType a.2.2)
    have hs : ∀ r : List (List (Str × List Str)) × Except PyErr (List DtsRef × Option Int × Option Str), ∀ serve,
        reffsLoop serve e.navQuery q e.turns none [] = some r → ∃ s, dtsReffs serve e.navQuery q e.turns = some s ∧
          ∀ log, asNav log s = goOn (asNav log r) fun log a => (log, .ok (k a)) := by
      intro r serve hr
      obtain ⟨l, out⟩ := r
      cases out with
      | error x => exact ⟨(l, .error x), by rw [dtsReffs, hr], fun log => rfl⟩
      | ok a => exact ⟨(l, .ok (k a)), by rw [dtsReffs, hr], fun log => rfl⟩
    obtain ⟨s1, a1, a2⟩ := hs r1 _ h1
    obtain ⟨s2, b1, b2⟩ := hs r2 _ g1
    rw [a1] at hr
    cases hr
    refine ⟨s2, b1, fun log => ?_⟩
    rw [a2, b2]
    exact follows_goOn (g2 log) fun log a _ => follows_done e' log _

theorem follows_readListed {γ : Type} {e' e : DtsTexts γ} (h : Falters e' e) (id : Str) (level : Nat) (log : List DocReq)
    {r : List DocReq × Except PyErr (List (TextDoc γ))} (hr : readListed e id level log = some r) :
    ∃ r', readListed e' id level log = some r' ∧ Follows e' log r' r := by
  cases h1 : dtsReffs e.navigation e.navQuery ⟨id, .int level, .none, .none, .int 1⟩ e.turns with
  | none => rw [readListed, h1] at hr; cases hr
  | some r1 =>
    obtain ⟨r2, g1, g2⟩ := follows_reffs h _ h1
    have hs : ∀ (f : DtsTexts γ) r, dtsReffs f.navigation f.navQuery ⟨id, .int level, .none, .none, .int 1⟩ f.turns = some r →
        readListed f id level log = some (goOn (asNav log r) fun log set => openAll f id log set.items) := by
      intro f r hr
      obtain ⟨l, out⟩ := r
      cases out <;> rw [readListed, hr] <;> rfl
    rw [hs e _ h1] at hr
    cases hr
    exact ⟨_, hs e' _ g1, follows_goOn (g2 log) fun log set _ => follows_openAll h id set.items log⟩

theorem follows_children {γ : Type} {e' e : DtsTexts γ} (h : Falters e' e) (log : List DocReq) (t : TextDoc γ)
    {l : List DocReq} {t1 : TextDoc γ} {out : Except PyErr (List (TextDoc γ))} (hr : t.children e log = some (l, t1, out)) :
    ∃ l' t1' out', t.children e' log = some (l', t1', out') ∧ Follows e' log (l', out') (l, out) := by
  cases hk : t.doc.kids with
  | some ks =>
    simp only [TextDoc.children, DtsDoc.childIds, hk, Option.some.injEq, Prod.mk.injEq] at hr ⊢
    obtain ⟨rfl, rfl, rfl⟩ := hr
    exact ⟨_, _, _, ⟨rfl, rfl, rfl⟩, follows_nodes h _ ks log⟩
  | none =>
    cases h1 : dtsReffs e.navigation e.navQuery ⟨t.doc.id, .int 1, t.doc.ref, .none, .int 1⟩ e.turns with
    | none => simp only [TextDoc.children, DtsDoc.childIds, DtsDoc.reffs, hk, h1] at hr; cases hr
    | some r1 =>
      obtain ⟨r2, g1, g2⟩ := follows_reffs h _ h1
      have hs : ∀ (f : DtsTexts γ) r, dtsReffs f.navigation f.navQuery ⟨t.doc.id, .int 1, t.doc.ref, .none, .int 1⟩ f.turns = some r →
          ∃ t1, t.children f log = some ((goOn (asNav log r) fun log set => ({ t with doc := { t.doc with kids := some set.items } } : TextDoc γ).nodes f log set.items).1, t1,
            (goOn (asNav log r) fun log set => ({ t with doc := { t.doc with kids := some set.items } } : TextDoc γ).nodes f log set.items).2) := by
        intro f r hr
        obtain ⟨l, out⟩ := r
        cases out <;> simp only [TextDoc.children, DtsDoc.childIds, DtsDoc.reffs, hk, hr] <;> exact ⟨_, rfl⟩
      obtain ⟨u, a1⟩ := hs e _ h1
      obtain ⟨u', b1⟩ := hs e' _ g1
      rw [a1] at hr
      cases hr
      exact ⟨_, u', _, b1, follows_goOn (g2 log) fun log set _ => follows_nodes h _ set.items log⟩

theorem follows_readEach {γ : Type} {e' e : DtsTexts γ} (h : Falters e' e) (level : Nat) : ∀ (ids : List Str) (log : List DocReq) r,
    readEach e level log ids = some r → ∃ r', readEach e' level log ids = some r' ∧ Follows e' log r' r
  | [], log, r, hr => by cases hr; exact ⟨_, rfl, follows_done e' log _⟩
  | id :: ids, log, r, hr => by
    cases h1 : readListed e id level log with
    | none => rw [readEach, h1] at hr; cases hr
    | some r1 =>
      obtain ⟨r2, g1, g2⟩ := follows_readListed h id level log h1
      obtain ⟨l, out⟩ := r1
      cases out with
      | error x =>
        rw [readEach, h1] at hr
        cases hr
        obtain ⟨l2, out2⟩ := r2
        have : ∃ y, out2 = .error y := by
          rcases g2 with ⟨k, _⟩ | ⟨_, _, _, y, _, k, _⟩ <;> cases k <;> exact ⟨_, rfl⟩
        obtain ⟨y, rfl⟩ := this
        refine ⟨(l2, .error y), by simp only [readEach, g1], ?_⟩
        exact follows_goOn (k' := fun log (_ : List (TextDoc γ)) => (log, .ok [])) (k := fun log (_ : List (TextDoc γ)) => (log, .ok [])) g2 fun log a _ => follows_done e' log _
      | ok ds =>
        simp only [readEach, h1] at hr
        cases h2 : readEach e level l ids with
        | none => simp only [h2] at hr; cases hr
        | some r3 =>
          obtain ⟨r4, k1, k2⟩ := follows_readEach h level ids l r3 h2
          have hr' : r = goOn r3 fun log rest => (log, .ok ((id, ds) :: rest)) := by
            obtain ⟨l3, out3⟩ := r3
            cases out3 <;> simp only [h2, Option.some.injEq] at hr <;> rw [← hr] <;> rfl
          subst hr'
          have hstep : ∀ l2 ds2, r2 = (l2, .ok ds2) → l2 = l ∧ ds2 = ds := by
            intro l2 ds2 hh
            rcases g2 with ⟨k, _⟩ | ⟨_, _, _, y, _, k, _⟩ <;> rw [hh] at k <;> cases k <;> exact ⟨rfl, rfl⟩
          have hrun : readEach e' level log (id :: ids) = some (goOn r2 fun _ _ => goOn r4 fun log rest => (log, .ok ((id, ds) :: rest))) := by
            obtain ⟨l2, out2⟩ := r2
            cases out2 with
            | error y => simp only [readEach, g1]; rfl
            | ok ds2 =>
              obtain ⟨rfl, rfl⟩ := hstep l2 ds2 rfl
              obtain ⟨l4, out4⟩ := r4
              cases out4 <;> simp only [readEach, g1, k1] <;> rfl
          refine ⟨_, hrun, ?_⟩
          refine follows_goOn (p := (l, .ok ds)) (k := fun _ _ => goOn r3 fun log rest => (log, .ok ((id, ds) :: rest))) g2 fun log a hla => ?_
          cases hla
          exact follows_goOn k2 fun log a _ => follows_done e' log _

end Verif.Lemmas
