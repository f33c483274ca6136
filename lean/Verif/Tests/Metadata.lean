import Verif.Model.MetadataExport
/-!
Assertions of /repo/tests/common/test_metadata.py on the model, for the order in which statements were added. These are tests, not proofs.
-/
namespace Verif.Tests
open Verif.Py Verif.Model

def ctsNs : String := "http://chs.harvard.edu/xmlns/cts/"
def dtsNs : String := "https://w3id.org/dts/api#"
def ctsTerm (s : String) : Term := .uri (ctsNs ++ s).toList
def dtsTerm (s : String) : Term := .uri (dtsNs ++ s).toList
def self : Term := .bnode "m".toList
/-- `metadata.add(key, value, lang)`. -/
def addTo (g : Graph) (k : Term) (v : String) (lang : Option String) : Graph := metaAdd g self k (.str v.toList) (lang.map String.toList)
def lit (v : String) (lang : Option String) : Term := .lit v.toList (lang.map String.toList) none

-- test_add_value
example : metaGetSingle id (addTo [] (ctsTerm "title") "Title" none) self (ctsTerm "title") none = .ok (some (lit "Title" none)) := by decide +kernel
example : metaGetSingle id (addTo [] (ctsTerm "description") "Titre" (some "fre")) self (ctsTerm "description") (some "fre".toList) =
    .ok (some (lit "Titre" (some "fre"))) := by decide +kernel
example : metaGetSingle id (addTo [] (ctsTerm "description") "Titre" (some "fre")) self (ctsTerm "description") (some "eng".toList) =
    .ok (some (lit "Titre" (some "fre"))) := by decide +kernel

/-- The statements of test_get and test_get_item. -/
def titles : Graph := addTo (addTo (addTo [] (ctsTerm "title") "Title" none) (ctsTerm "title") "Title" (some "eng")) (ctsTerm "title") "SubTitle" (some "eng")

-- test_get, test_get_item
example : metaGet id titles self (ctsTerm "title") none = .ok [lit "Title" none, lit "Title" (some "eng"), lit "SubTitle" (some "eng")] := by decide +kernel
example : metaGet id titles self (ctsTerm "title") (some "eng".toList) = .ok [lit "Title" (some "eng"), lit "SubTitle" (some "eng")] := by decide +kernel
example : metaGetSingle id titles self (ctsTerm "title") (some "eng".toList) = .ok (some (lit "Title" (some "eng"))) := by decide +kernel

/-- The statements of test_remove_unlink. -/
def linked : Graph := (addTo (addTo titles (ctsTerm "description") "SubTitle" (some "eng")) (ctsTerm "description") "SubTitle" (some "fre")).insert
  ⟨.bnode "b".toList, .uri "nobodycares".toList, self⟩
/-- `m.graph.subject_predicates(m.asNode())`. -/
def linksTo (g : Graph) : List (Term × Term) := (g.filter fun t => t.o = self).map fun t => (t.s, t.p)

-- test_remove_unlink
example : metaGet id (metaRemove linked self (some (ctsTerm "title")) none) self (ctsTerm "title") none = .ok [] := by decide +kernel
example : metaGet id (metaRemove linked self (some (ctsTerm "title")) none) self (ctsTerm "description") none =
    .ok [lit "SubTitle" (some "eng"), lit "SubTitle" (some "fre")] := by decide +kernel
example : linksTo (metaRemove linked self (some (ctsTerm "title")) none) = [(.bnode "b".toList, .uri "nobodycares".toList)] := by decide +kernel
example : linksTo (metaUnlink (metaRemove linked self (some (ctsTerm "title")) none) self none none) = [] := by decide +kernel

/-- `compute_qname(predicate)[1]` on the predicates of the test. -/
def nsOfTest (s : Str) : Except PyErr Str :=
  if ctsNs.toList.isPrefixOf s then .ok ctsNs.toList else if dtsNs.toList.isPrefixOf s then .ok dtsNs.toList else .error .valueError
/-- `str.title` on one word. -/
def titleWord : Str → Str
  | [] => []
  | c :: r => c.toUpper :: r.map Char.toLower
/-- The statements of test_export_exclude. -/
def described : Graph := addTo (addTo linked (dtsTerm "description") "SubTitle" (some "eng")) (dtsTerm "description") "SubTitle" (some "fre")
def subtitles : ByLang := [(some "eng".toList, .one "Subtitle".toList), (some "fre".toList, .one "Subtitle".toList)]

-- test_export_exclude
example : (exportJson id id nsOfTest titleWord described self none (some [.term (ctsTerm "title")])).map Prod.fst =
    .ok [((ctsTerm "description").str, subtitles), ((dtsTerm "description").str, subtitles)] := by decide +kernel
example : (exportJson id id nsOfTest titleWord described self none (some [.text ctsNs.toList])).map Prod.fst =
    .ok [((dtsTerm "description").str, subtitles)] := by decide +kernel
-- test_export_multiple_values_JSON
example : (exportJson id id nsOfTest titleWord
      (addTo (addTo (addTo (addTo [] (dtsTerm "c") "Me" (some "eng")) (dtsTerm "c") "You" (some "eng")) (dtsTerm "c") "Ich" (some "deu")) (dtsTerm "c") "Du" (some "deu"))
      self none none).map Prod.fst =
    .ok [((dtsTerm "c").str, [(some "eng".toList, .many ["Me".toList, "You".toList]), (some "deu".toList, .many ["Ich".toList, "Du".toList])])] := by
  decide +kernel

end Verif.Tests
