import Verif.Model.Retriever
/-!
Assertions of /repo/tests/retrievers/test_cts5.py 16-221 and test_dts.py 121-175 on the model. These are tests, not proofs.
Python compares dictionaries without their order; here the parameters are sorted by name as the test lists them, by looking each up.
-/
namespace Verif.Tests
open Verif.Py Verif.Model

/-- The requests made are exactly the listed parameters. -/
def sends (made : List (Str × Str)) (expected : List (String × String)) : Bool :=
  made.length == expected.length && expected.all fun e => made.lookup e.1.toList == some e.2.toList

def sUrn : Str := "urn".toList
def sInv : Option Str := some "inventory".toList
def longUrn : String := "urn:cts:latinLit:phi1294.phi002.perseus-lat2"

-- test_request_Cts_getCapabilities_arguments
example : sends (getCapabilities none sInv none) [("inv", "inventory"), ("request", "GetCapabilities")] = true := by decide +kernel
-- test_request_Cts_getValidReff_arguments
example : sends (ctsValidReff none sUrn sInv (some 1)) [("inv", "inventory"), ("request", "GetValidReff"), ("level", "1"), ("urn", "urn")] = true := by decide +kernel
example : sends (ctsValidReff none sUrn sInv none) [("inv", "inventory"), ("request", "GetValidReff"), ("urn", "urn")] = true := by decide +kernel
-- test_request_Cts_getPassage_arguments, test_call_with_default
example : sends (ctsPassage none sUrn sInv (some 1)) [("inv", "inventory"), ("request", "GetPassage"), ("context", "1"), ("urn", "urn")] = true := by decide +kernel
example : sends (ctsPassage none sUrn sInv none) [("inv", "inventory"), ("request", "GetPassage"), ("urn", "urn")] = true := by decide +kernel
example : sends (ctsPassage (some "annotsrc".toList) sUrn none none) [("inv", "annotsrc"), ("request", "GetPassage"), ("urn", "urn")] = true := by decide +kernel
-- test_request_Cts_getPassagePlus_arguments
example : sends (ctsPassagePlus none sUrn sInv (some 1)) [("inv", "inventory"), ("request", "GetPassagePlus"), ("context", "1"), ("urn", "urn")] = true := by decide +kernel
example : sends (ctsPassagePlus none sUrn sInv none) [("inv", "inventory"), ("request", "GetPassagePlus"), ("urn", "urn")] = true := by decide +kernel
-- test_request_Cts_getFirstUrn_arguments, test_request_Cts_getPrevNextUrn_arguments, test_request_Cts_getLabel_arguments
example : sends (ctsFirstUrn none sUrn sInv) [("inv", "inventory"), ("request", "GetFirstUrn"), ("urn", "urn")] = true := by decide +kernel
example : sends (ctsPrevNextUrn none sUrn sInv) [("inv", "inventory"), ("request", "GetPrevNextUrn"), ("urn", "urn")] = true := by decide +kernel
example : sends (ctsLabel none sUrn sInv) [("inv", "inventory"), ("request", "GetLabel"), ("urn", "urn")] = true := by decide +kernel
-- test_get_siblings
example : sends (ctsSiblings none longUrn.toList (.text "1.1".toList)) [("request", "GetPrevNextUrn"), ("urn", longUrn ++ ":1.1")] = true := by decide +kernel
-- test_get_children (the default level is 1: cts5.py 197)
example : (ctsReffs none longUrn.toList (some 1) .none).map (sends · [("request", "GetValidReff"), ("urn", longUrn), ("level", "1")]) = .ok true := by decide +kernel
example : (ctsReffs none longUrn.toList (some 1) (.text "1.1".toList)).map (sends · [("request", "GetValidReff"), ("urn", longUrn ++ ":1.1"), ("level", "3")]) =
    .ok true := by decide +kernel
example : (ctsReffs none longUrn.toList (some 2) (.text "1".toList)).map (sends · [("request", "GetValidReff"), ("urn", longUrn ++ ":1"), ("level", "3")]) =
    .ok true := by decide +kernel
-- test_get_metadata
example : sends (getCapabilities none none none) [("request", "GetCapabilities")] = true := by decide +kernel
example : sends (getCapabilities none none (some sUrn)) [("request", "GetCapabilities"), ("urn", "urn")] = true := by decide +kernel
-- test_get_text
example : sends (ctsTextualNode none sUrn .none false true) [("request", "GetPassagePlus"), ("urn", "urn")] = true := by decide +kernel
example : sends (ctsTextualNode none sUrn (.text "1.1".toList) false false) [("request", "GetPassage"), ("urn", "urn:1.1")] = true := by decide +kernel

/-- The links of the collection of test_dts.py. -/
def links : List Link := [("first", "1"), ("previous", "18"), ("next", "20"), ("last", "500")].map fun l =>
  ⟨l.1.toList, ("/api/dts/collections/?id=lettres_de_poilus&page=" ++ l.2).toList⟩

-- test_get_collection_headers_parsing_and_hit
example : parsePagination id links = .ok ⟨some "18".toList, some "20".toList, some "500".toList, none, some "1".toList⟩ := by decide +kernel
example : getCollection [] none children (.int 1) = [] := by decide +kernel
-- test_querystring_type_of_route
example : getCollection [("api".toList, ["collections".toList])] (some "Hello".toList) "parents".toList (.int 19) =
    [("id", "Hello"), ("nav", "parents"), ("page", "19"), ("api", "collections")].map (fun p => (p.1.toList, [p.2.toList])) := by decide +kernel
-- the entry point is asked once (calls 0 and 1 of the test)
example : (DtsRetriever.call ⟨none, []⟩ [("collections".toList, ("/".toList, [("api".toList, ["collections".toList])]))] "collections".toList
      [(kId, .str "Hello".toList)] []).1.log =
    [.entry, .get "/".toList [("id".toList, ["Hello".toList]), ("api".toList, ["collections".toList])]] := by decide +kernel

end Verif.Tests
