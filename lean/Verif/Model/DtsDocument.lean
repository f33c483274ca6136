import Verif.Model.DtsResolver
/-!
Documents of the DTS resolver: MyCapytain/resources/texts/remote/dts/_resolver_v1.py, `getTextualNode` and `getMetadata` of
resolvers/dts/api_v1.py, and what documents have from resources/prototypes/text.py.

A reply of the documents route is the list of the links of its `Link` header, each with its relation and the dictionary
that `parse_qs` makes of the query of its address; of the values of a key only the first one is read, and only this one
is kept. Parsing the header and the XML text are left out. Each function that makes requests is given the requests made so
far and returns them with its own.
-/
namespace Verif.Model
open Verif.Py

/-- A link of the header: _resolver_v1.py 91-94. -/
structure DocLink where
  rel : Str
  query : List (Str × Str)
  deriving DecidableEq, Repr

/-- `next`: _resolver_v1.py 95. -/
def relNext : Str := ['n','e','x','t']
/-- `prev`: _resolver_v1.py 97. -/
def relPrev : Str := ['p','r','e','v']
/-- `parent`: _resolver_v1.py 99. -/
def relParent : Str := ['p','a','r','e','n','t']
/-- `up`: _resolver_v1.py 100. -/
def relUp : Str := ['u','p']
/-- `last`: _resolver_v1.py 104. -/
def relLast : Str := ['l','a','s','t']
/-- `collection`: _resolver_v1.py 105. -/
def relCollection : Str := ['c','o','l','l','e','c','t','i','o','n']

/-- `links.get(rel)`, where a link takes the place of an earlier one of the same relation: _resolver_v1.py 91-94. -/
def linkOf : List DocLink → Str → Option (List (Str × Str))
  | [], _ => none
  | l :: ls, rel =>
    match linkOf ls rel with
    | some q => some q
    | none => if l.rel = rel then some l.query else none

/-- `header_dic.get(key, [None])[0]`: _resolver_v1.py 72-77. -/
def queryValue (q : List (Str × Str)) (k : Str) : Option Str := (q.find? fun p => p.1 == k).map (·.2)

/-- `_dict_to_ref`: _resolver_v1.py 71-79. -/
def dictToRef (q : List (Str × Str)) : Option DtsRef :=
  match queryValue q kRef with
  | some (c :: r) => some ⟨c :: r, none, none⟩
  | _ =>
    match queryValue q kStart, queryValue q kEnd with
    | some (c :: s), some (c' :: e) => some ⟨c :: s, some (c' :: e), none⟩
    | _, _ => none

/-- `if links.get(guard): … = o._dict_to_ref(links.get(rel))`, where `None` has no `get`: _resolver_v1.py 95-106. -/
def linkRef (ls : List DocLink) (guard rel : Str) : Except PyErr (Option DtsRef) :=
  match linkOf ls guard with
  | none => .ok none
  | some [] => .ok none
  | some (_ :: _) =>
    match linkOf ls rel with
    | none => .error .attributeError
    | some q => .ok (dictToRef q)

/-- `_collection`: nothing yet, the reference that `parse` makes of a `collection` link, or a collection. -/
inductive DocColl (γ : Type) where
  | unset
  | ref (r : DtsRef)
  | coll (c : γ)
  deriving DecidableEq, Repr

/-- A document: `_first_id` and `_last_id` are left out, nothing reads them. `kids` is `_childIds`. -/
structure DtsDoc (γ : Type) where
  id : Str
  ref : DtsRefArg
  prev : Option DtsRef
  next : Option DtsRef
  parent : Option DtsRef
  coll : DocColl γ
  depth : Option Nat
  kids : Option (List RefItem)
  deriving Repr

/-- `parse`: _resolver_v1.py 81-108, with `__init__`, 18-37. -/
def openDocument {γ : Type} (id : Str) (ref : DtsRefArg) (ls : List DocLink) : Except PyErr (DtsDoc γ) :=
  match linkRef ls relNext relNext with
  | .error e => .error e
  | .ok next =>
    match linkRef ls relPrev relPrev with
    | .error e => .error e
    | .ok prev =>
      match linkRef ls relParent relUp with
      | .error e => .error e
      | .ok parent =>
        match linkRef ls relParent relLast with
        | .error e => .error e
        | .ok _ =>
          match linkRef ls relCollection relCollection with
          | .error e => .error e
          | .ok c => .ok ⟨id, ref, prev, next, parent, match c with | none => .unset | some r => .ref r, none, none⟩

/-- A request, with its parameters. -/
inductive DocReq where
  | document (ps : List (Str × List Str))
  | collection (ps : List (Str × List Str))
  | navigation (ps : List (Str × List Str))
  deriving DecidableEq, Repr

/-- An endpoint, as a resolver sees it: the replies of its routes, the parameters that are part of the routes, and the depth
of the citation system that a collection announces. An error is what the request or the parsing of its reply raises.
`turns` bounds the pages of a listing of references that are followed. -/
structure DtsNet (γ : Type) where
  documents : List (Str × List Str) → Except PyErr (List DocLink)
  collections : List (Str × List Str) → Except PyErr γ
  navigation : List (Str × List Str) → Except PyErr (Option NavPage)
  docQuery : List (Str × List Str)
  colQuery : List (Str × List Str)
  navQuery : List (Str × List Str)
  depthOf : γ → Nat
  turns : Nat

/-- A reference as an argument of `getTextualNode`. -/
def DtsRef.arg (r : DtsRef) : DtsRefArg := .ref (.str r.start) (.ofOption r.stop)

/-- An item of a reference set as an argument of `getTextualNode`. -/
def RefItem.arg : RefItem → DtsRefArg
  | .ref r => r.arg
  | .part none => .none
  | .part (some s) => .other (.str s)

/-- `getTextualNode` of the resolver: api_v1.py 149-174. -/
def resolveDoc {γ : Type} (net : DtsNet γ) (log : List DocReq) (id : Str) (ref : DtsRefArg) : List DocReq × Except PyErr (DtsDoc γ) :=
  let r := getDocument net.docQuery id ref
  (log ++ [.document r],
    match net.documents r with
    | .error e => .error e
    | .ok ls => openDocument id ref ls)

/-- `getTextualNode` of a document: _resolver_v1.py 61-66. -/
def DtsDoc.node {γ : Type} (net : DtsNet γ) (log : List DocReq) (d : DtsDoc γ) (ref : DtsRefArg) : List DocReq × Except PyErr (DtsDoc γ) :=
  match resolveDoc net log d.id ref with
  | (log', .error e) => (log', .error e)
  | (log', .ok o) => (log', .ok { o with coll := d.coll })

/-- `if id is not None: return self.getTextualNode(id)`: prototypes/text.py 282-294. -/
def DtsDoc.sibling {γ : Type} (net : DtsNet γ) (log : List DocReq) (d : DtsDoc γ) : Option DtsRef → List DocReq × Except PyErr (Option (DtsDoc γ))
  | none => (log, .ok none)
  | some r =>
    match d.node net log r.arg with
    | (log', .error e) => (log', .error e)
    | (log', .ok o) => (log', .ok (some o))

/-- `next`: prototypes/text.py 289-294. -/
def DtsDoc.goNext {γ : Type} (net : DtsNet γ) (log : List DocReq) (d : DtsDoc γ) := d.sibling net log d.next

/-- `prev`: prototypes/text.py 282-287. -/
def DtsDoc.goPrev {γ : Type} (net : DtsNet γ) (log : List DocReq) (d : DtsDoc γ) := d.sibling net log d.prev

/-- `parent`: prototypes/text.py 304-309. -/
def DtsDoc.goParent {γ : Type} (net : DtsNet γ) (log : List DocReq) (d : DtsDoc γ) : List DocReq × Except PyErr (DtsDoc γ) :=
  d.node net log (match d.parent with | none => .none | some r => r.arg)

/-- `collection`: _resolver_v1.py 39-43, with `getMetadata`, api_v1.py 72-81. A reference and a collection are true. The
document is returned as it is afterwards. -/
def DtsDoc.collection {γ : Type} (net : DtsNet γ) (log : List DocReq) (d : DtsDoc γ) : List DocReq × DtsDoc γ × Except PyErr (DocColl γ) :=
  match d.coll with
  | .unset =>
    let r := getCollection net.colQuery (some d.id) children .none
    match net.collections r with
    | .error e => (log ++ [.collection r], d, .error e)
    | .ok c => (log ++ [.collection r], { d with coll := .coll c }, .ok (.coll c))
  | c => (log, d, .ok c)

/-- `depth`: _resolver_v1.py 45-49. A reference has no `citation`. -/
def DtsDoc.getDepth {γ : Type} (net : DtsNet γ) (log : List DocReq) (d : DtsDoc γ) : List DocReq × DtsDoc γ × Except PyErr Nat :=
  match d.depth with
  | some n => (log, d, .ok n)
  | none =>
    match d.collection net log with
    | (log', d', .error e) => (log', d', .error e)
    | (log', d', .ok (.coll c)) => (log', { d' with depth := some (net.depthOf c) }, .ok (net.depthOf c))
    | (log', d', .ok _) => (log', d', .error .attributeError)

/-- `getReffs` of a document: _resolver_v1.py 68-69, with the defaults of api_v1.py 83-90 and 104. -/
def DtsDoc.reffs {γ : Type} (net : DtsNet γ) (log : List DocReq) (d : DtsDoc γ) (_level : Val) (sub : Option DtsRef) :
    Option (List DocReq × Except PyErr DtsRefSet) :=
  let ref := match sub with | some r => r.arg | none => d.ref
  match dtsReffs net.navigation net.navQuery ⟨d.id, .int 1, ref, .none, .int 1⟩ net.turns with
  | none => none
  | some (log', out) => some (log ++ log'.map .navigation, out)

/-- `childIds`: prototypes/text.py 325-333. -/
def DtsDoc.childIds {γ : Type} (net : DtsNet γ) (log : List DocReq) (d : DtsDoc γ) : Option (List DocReq × DtsDoc γ × Except PyErr (List RefItem)) :=
  match d.kids with
  | some ks => some (log, d, .ok ks)
  | none =>
    match d.reffs net log (.int 1) none with
    | none => none
    | some (log', .error e) => some (log', d, .error e)
    | some (log', .ok set) => some (log', { d with kids := some set.items }, .ok set.items)

/-- `firstId`: prototypes/text.py 335-344. An item that is `None` cannot be told from no item. -/
def DtsDoc.firstId {γ : Type} (net : DtsNet γ) (log : List DocReq) (d : DtsDoc γ) : Option (List DocReq × DtsDoc γ × Except PyErr (Option RefItem)) :=
  match d.childIds net log with
  | none => none
  | some (log', d', .error e) => some (log', d', .error e)
  | some (log', d', .ok ks) => some (log', d', .ok ks.head?)

/-- `lastId`: prototypes/text.py 346-355. -/
def DtsDoc.lastId {γ : Type} (net : DtsNet γ) (log : List DocReq) (d : DtsDoc γ) : Option (List DocReq × DtsDoc γ × Except PyErr (Option RefItem)) :=
  match d.childIds net log with
  | none => none
  | some (log', d', .error e) => some (log', d', .error e)
  | some (log', d', .ok ks) => some (log', d', .ok ks.getLast?)

/-- `if id is not None: return self.getTextualNode(id)`: prototypes/text.py 311-323. -/
def DtsDoc.child {γ : Type} (net : DtsNet γ) (log : List DocReq) (d : DtsDoc γ) : Option RefItem → List DocReq × Except PyErr (Option (DtsDoc γ))
  | none => (log, .ok none)
  | some (.part none) => (log, .ok none)
  | some i =>
    match d.node net log i.arg with
    | (log', .error e) => (log', .error e)
    | (log', .ok o) => (log', .ok (some o))

/-- `first`: prototypes/text.py 311-316. -/
def DtsDoc.goFirst {γ : Type} (net : DtsNet γ) (log : List DocReq) (d : DtsDoc γ) : Option (List DocReq × DtsDoc γ × Except PyErr (Option (DtsDoc γ))) :=
  match d.firstId net log with
  | none => none
  | some (log', d', .error e) => some (log', d', .error e)
  | some (log', d', .ok i) => let o := d'.child net log' i; some (o.1, d', o.2)

/-- `last`: prototypes/text.py 318-323. -/
def DtsDoc.goLast {γ : Type} (net : DtsNet γ) (log : List DocReq) (d : DtsDoc γ) : Option (List DocReq × DtsDoc γ × Except PyErr (Option (DtsDoc γ))) :=
  match d.lastId net log with
  | none => none
  | some (log', d', .error e) => some (log', d', .error e)
  | some (log', d', .ok i) => let o := d'.child net log' i; some (o.1, d', o.2)

/-- The loop of `children`, read to its end: prototypes/text.py 296-302. -/
def DtsDoc.nodes {γ : Type} (net : DtsNet γ) (d : DtsDoc γ) : List DocReq → List RefItem → List DocReq × Except PyErr (List (DtsDoc γ))
  | log, [] => (log, .ok [])
  | log, i :: is =>
    match d.node net log i.arg with
    | (log', .error e) => (log', .error e)
    | (log', .ok o) =>
      match DtsDoc.nodes net d log' is with
      | (log'', .error e) => (log'', .error e)
      | (log'', .ok os) => (log'', .ok (o :: os))

/-- `children`, read to its end: prototypes/text.py 296-302. -/
def DtsDoc.children {γ : Type} (net : DtsNet γ) (log : List DocReq) (d : DtsDoc γ) : Option (List DocReq × DtsDoc γ × Except PyErr (List (DtsDoc γ))) :=
  match d.childIds net log with
  | none => none
  | some (log', d', .error e) => some (log', d', .error e)
  | some (log', d', .ok ks) => let o := d'.nodes net log' ks; some (o.1, d', o.2)

end Verif.Model
