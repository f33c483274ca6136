import Verif.Tests.Reference
import Verif.Model.Citation
import Verif.Model.CitationSetters
import Verif.Model.CitationHeap
import Verif.Model.TeiRefsDecl
/-!
Assertions of /repo/tests/common/test_reference/test_capitains_cts.py 259-422, test_citation_dts.py and
/repo/tests/common/test_utils.py 9-22, evaluated on the model. These are tests, not proofs.
-/
namespace Verif.Tests
open Verif.Py Verif.Model

/-- `Citation(refsDecl=s)`. -/
def cite (s : String) : CiteText := newCiteText none none (some s.toList)

def path2 : String := "/TEI/text/body/div/div[@n=\"$1\"]//l[@n=\"$2\"]"
def pathOr : String := "/TEI/text/body/div/div[@n=\"$1\"]/*[self::tei:l or self::tei:p][@n=\"$2\"]"
def pathOr1 : String := "/TEI/text/body/div/*[self::tei:l or self::tei:p][@n=\"$1\"]"

-- test_updateRefsdecl, test_updateRefsdecl_and, test_updateScopeXpath
example : (newCiteText (some "//l[@n=\"?\"]".toList) (some "/TEI/text/body/div/div[@n=\"?\"]".toList) none).refsDecl = some path2.toList := by decide +kernel
example : (cite "/TEI/text/body/div/div[@n=\"?\" and @subtype='edition']/l[@n=\"?\"]").refsDecl =
    some "/TEI/text/body/div/div[@n=\"?\" and @subtype='edition']/l[@n=\"?\"]".toList := by decide +kernel
example : citeScope (cite path2) = .ok "/TEI/text/body/div/div[@n=\"?\"]".toList := by decide +kernel
example : citeXpath (cite path2) = .ok "//l[@n=\"?\"]".toList := by decide +kernel
-- test_or_in_xpath
example : citeScope (cite pathOr) = .ok "/TEI/text/body/div/div[@n=\"?\"]".toList := by decide +kernel
example : citeXpath (cite pathOr) = .ok "/*[self::tei:l or self::tei:p][@n=\"?\"]".toList := by decide +kernel
example : fill pathOr.toList (.list [some "1".toList, some "2".toList]) =
    .ok "/TEI/text/body/div/div[@n='1']/*[self::tei:l or self::tei:p][@n='2']".toList := by decide +kernel
example : citeScope (cite pathOr1) = .ok "/TEI/text/body/div".toList := by decide +kernel
example : citeXpath (cite pathOr1) = .ok "/*[self::tei:l or self::tei:p][@n=\"?\"]".toList := by decide +kernel
-- test_child, test_iter, test_len, test_get_item: the line is 0, the poem is 1, the book is 2
def lines : CHeap := ((CHeap.empty.step (.new 0 [])).step (.new 1 [0])).step (.new 2 [1])
example : (lines 1).children = [0] := by decide +kernel
example : lines.iter 5 2 = some [2, 1, 0] := by decide +kernel
example : [-1, 2, 0, 1, 8].map (lines.getItem 5 2) = [some (.ok 0), some (.ok 0), some (.ok 2), some (.ok 1), some (.error .keyError)] := by decide +kernel
-- test_fill
example : [[some "1", some "2"], [some "1", some "1"], [none, none], [some "1", none]].map
      (fun l => fill path2.toList (.list (l.map (·.map String.toList)))) =
    ["/TEI/text/body/div/div[@n='1']//l[@n='2']", "/TEI/text/body/div/div[@n='1']//l[@n='1']", "/TEI/text/body/div/div[@n]//l[@n]",
      "/TEI/text/body/div/div[@n='1']//l[@n]"].map (fun s => .ok s.toList) := by decide +kernel
example : fill path2.toList (.ref ["1".toList, "2".toList]) = .ok "/TEI/text/body/div/div[@n='1']//l[@n='2']".toList := by decide +kernel
example : fill path2.toList .none = .ok "/TEI/text/body/div/div[@n]//l[@n]".toList := by decide +kernel
example : [some "1", some "2", none].map (fun v => fillXpath path2.toList (v.map String.toList)) =
    ["//l[@n='1']", "//l[@n='2']", "//l[@n]"].map (fun s => .ok s.toList) := by decide +kernel
-- test_ingest_and_match
def pattern (n repl : String) : Node :=
  .mk "tei:cRefPattern".toList [("n".toList, n.toList), ("replacementPattern".toList, repl.toList)] [] [] []
def header : Node := .mk "tei:TEI".toList [] [] [.mk "tei:refsDecl".toList [("n".toList, "CTS".toList)] [] [
  pattern "line" "#xpath(/tei:TEI/tei:text/tei:body/tei:div/tei:div[@n='$1']/tei:div[@n='$2']/tei:l[@n='$3'])",
  pattern "poem" "#xpath(/tei:TEI/tei:text/tei:body/tei:div/tei:div[@n='$1']/tei:div[@n='$2'])",
  pattern "book" "#xpath(/tei:TEI/tei:text/tei:body/tei:div/tei:div[@n='$1'])"] []] []
example : (ingestTei header).map (·.map CiteLevel.name) = .ok [some "book".toList, some "poem".toList, some "line".toList] := by decide +kernel
example : (CHeap.empty.ingest 0 3 2).root = none := by decide +kernel
example : [2, 1, 0].map (fun c => ["1", "1.2", "1.2.4"].map fun r => ofRef r fun r => (CHeap.empty.ingest 0 3).matchRef 8 c r) =
    List.replicate 3 [some (some (.ok 2)), some (some (.ok 1)), some (some (.ok 0))] := by decide +kernel

/-- An expanded citation structure. -/
def expCite (n : String) (cs : Option (List ExpCite)) : ExpCite := .mk (some [some n.toList]) cs
def ex1 : List ExpCite := [expCite "front" none, expCite "poem" (some [expCite "line" none])]
def ex2 : List ExpCite := [expCite "poem" (some [expCite "line" none])]
def ex3 : List ExpCite := [expCite "front" (some [expCite "paragraph" none]),
  expCite "poem" (some [expCite "line" (some [expCite "word" none])])]
/-- The names on a level of a set. -/
def level (e : List ExpCite) (i : Int) : Except PyErr (List (Option String)) :=
  (ingestSet e).bind fun ks => (Cite.setGet ks i).map (·.map fun c => c.data.name.map String.ofList)

-- test_ingest_multiple
example : (ingestSet ex1).map Cite.depthAll = .ok 2 := by decide +kernel
example : (ingestSet ex1).map Cite.lenAll = .ok 3 := by decide +kernel
example : level ex1 (-1) = .ok [some "line"] ∧ level ex1 (-2) = .ok [some "front", some "poem"] ∧ level ex1 0 = level ex1 (-2) := by decide +kernel
example : (ingestSet ex1).map (fun ks => (Cite.iterAll ks).all fun c => c.data.rootIsSet) = .ok true := by decide +kernel
-- test_ingest_multiple_deeper
example : (ingestSet ex3).map Cite.depthAll = .ok 3 := by decide +kernel
example : (ingestSet ex3).map Cite.lenAll = .ok 5 := by decide +kernel
example : level ex3 (-1) = .ok [some "word"] ∧ level ex3 2 = level ex3 (-1) ∧ level ex3 (-2) = .ok [some "paragraph", some "line"] ∧
    level ex3 1 = level ex3 (-2) ∧ level ex3 (-3) = .ok [some "front", some "poem"] ∧ level ex3 0 = level ex3 (-3) := by decide +kernel
-- test_ingest_simple_line
example : (ingestSet ex2).map Cite.depthAll = .ok 2 := by decide +kernel
example : (ingestSet ex2).map Cite.lenAll = .ok 2 := by decide +kernel
example : level ex2 (-1) = .ok [some "line"] ∧ level ex2 1 = level ex2 (-1) ∧ level ex2 (-2) = .ok [some "poem"] ∧ level ex2 0 = level ex2 (-2) := by decide +kernel

-- test_utils: test_clean_xpath
example : normalizeXpath (["tei:text", "tei:body", "tei:div", "tei:div[@n='1']", "tei:div[@n='pr']", "tei:l[@n='2']"].map String.toList) =
    ["tei:text", "tei:body", "tei:div", "tei:div[@n='1']", "tei:div[@n='pr']", "tei:l[@n='2']"].map String.toList := by decide +kernel
example : normalizeXpath (["tei:text", "tei:body", "tei:div", "tei:div[@n='1']", "", "tei:div[@n='pr']", "tei:l[@n='2']"].map String.toList) =
    ["tei:text", "tei:body", "tei:div", "tei:div[@n='1']", "/tei:div[@n='pr']", "tei:l[@n='2']"].map String.toList := by decide +kernel

end Verif.Tests
