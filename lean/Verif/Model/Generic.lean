import Verif.Py.Str
/-!
MyCapytain/common/utils/_generic.py, `expand_namespace` of MyCapytain/common/utils/_graph.py and
`make_xml_node` of MyCapytain/common/utils/xml.py.
-/
namespace Verif.Model
open Verif.Py

/-! ### normalize -/

/-- `_strip.sub(" ", string)` with `_strip = ([ ]{2,})+`: _generic.py 59-70. A match is a run of at least two
spaces; it is greedy, so it takes the whole run. -/
def normalize (s : Str) : Str :=
  match s with
  | ' ' :: ' ' :: r => ' ' :: normalize (r.dropWhile (· == ' '))
  | c :: r => c :: normalize r
  | [] => []
termination_by s.length
decreasing_by
  · have := (List.dropWhile_suffix (l := r) (· == ' ')).length_le
    simp; omega
  · simp

/-! ### Nested dictionaries -/

/-- A nested dictionary of `nested_ordered_dictionary` (_generic.py 7-32), or a value stored in one. The
items stand in the order of insertion. Stored values are taken not to be subscriptable by strings. -/
inductive NDict (α : Type) where
  | leaf (v : α)
  | dict (items : List (Str × NDict α))

/-- `d[key] = value` on the items: an existing key keeps its place, a new one comes last. -/
def putItem {β : Type} (l : List (Str × β)) (k : Str) (v : β) : List (Str × β) :=
  match l with
  | [] => [(k, v)]
  | (x, w) :: r => if x = k then (k, v) :: r else (x, w) :: putItem r k v

/-- `d[key]`, with the dictionary after the access: `__missing__` stores a new empty dictionary
(_generic.py 17-21). -/
def NDict.getItem {α : Type} (d : NDict α) (k : Str) : Except PyErr (NDict α × List (Str × NDict α)) :=
  match d with
  | .leaf _ => .error .typeError
  | .dict l =>
    match l.lookup k with
    | some v => .ok (v, l)
    | none => .ok (.dict [], putItem l k (.dict []))

/-- `nested_get(dictionary, keys)`: _generic.py 34-41; the value and the dictionary afterwards, in which the
keys that were missing now hold empty dictionaries. -/
def nestedGet {α : Type} : NDict α → List Str → Except PyErr (NDict α × NDict α)
  | d, [] => .ok (d, d)
  | d, k :: ks =>
    match d.getItem k with
    | .error e => .error e
    | .ok (sub, l) =>
      match nestedGet sub ks with
      | .error e => .error e
      | .ok (v, sub') => .ok (v, .dict (putItem l k sub'))

/-- `nested_set(dictionary, keys, value)`: _generic.py 44-52; the dictionary afterwards. -/
def nestedSet {α : Type} : NDict α → List Str → NDict α → Except PyErr (NDict α)
  | _, [], _ => .error .indexError
  | .leaf _, _ :: _, _ => .error .typeError
  | .dict l, k :: ks, v =>
    if ks = [] then .ok (.dict (putItem l k v))
    else match (NDict.dict l).getItem k with
      | .error e => .error e
      | .ok (sub, l) =>
        match nestedSet sub ks v with
        | .error e => .error e
        | .ok sub' => .ok (.dict (putItem l k sub'))

/-! ### expand_namespace -/

/-- `expand_namespace(nsmap, string)`: _graph.py 72-82, for a string and a table of strings in its order. -/
def expandNamespace (nsmap : List (Str × Str)) (s : Str) : Str :=
  match nsmap with
  | [] => s
  | (ns, uri) :: r => if startsWith s (ns ++ [':']) then replace (ns ++ [':']) uri s else expandNamespace r s

/-! ### make_xml_node -/

/-- `xml.sax.saxutils.escape(data)`: three replacements one after the other. -/
def xmlEscape (s : Str) : Str :=
  replace ['<'] ['&', 'l', 't', ';'] (replace ['>'] ['&', 'g', 't', ';'] (replace ['&'] ['&', 'a', 'm', 'p', ';'] s))

/-- `" ".join("{}=\"{}\"".format(name, value) …)`: xml.py 43-48. -/
def attrsText (attrs : List (Str × Str)) : Str :=
  join [' '] (attrs.map fun a => a.1 ++ ['=', '"'] ++ a.2 ++ ['"'])

/-- `make_xml_node(graph, name, close, attributes, text, complete, innerXML)`: xml.py 26-67. The name is given
as the qualified name that the graph's namespace manager returns for it. -/
def makeXmlNode (name : Str) (close : Bool) (attrs : Option (List (Str × Str))) (text : Str) (complete : Bool)
    (inner : Str) : Str :=
  if complete then
    match attrs with
    | some a => ['<'] ++ name ++ [' '] ++ attrsText a ++ ['>'] ++ xmlEscape text ++ inner ++ ['<', '/'] ++ name ++ ['>']
    | none => ['<'] ++ name ++ ['>'] ++ xmlEscape text ++ inner ++ ['<', '/'] ++ name ++ ['>']
  else if close then ['<', '/'] ++ name ++ ['>']
  else
    match attrs with
    | some a => ['<'] ++ name ++ [' '] ++ attrsText a ++ ['>']
    | none => ['<'] ++ name ++ ['>']

end Verif.Model
