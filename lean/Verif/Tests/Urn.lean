import Verif.Tests.Reference
import Verif.Model.Urn
/-!
Assertions of /repo/tests/common/test_reference/test_capitains_cts.py 91-256 on the URNs of the model. These are tests, not proofs.
-/
namespace Verif.Tests
open Verif.Py Verif.Model

/-- `f(URN(s))`. -/
def ofUrn {α : Type} (s : String) (f : Urn → Except PyErr α) : Except PyErr α := (Urn.parse s.toList).bind f

/-- `[URN(s).upTo(k) for k in keys]`. -/
def upTos (s : String) (keys : List Int) : Except PyErr (List String) :=
  ofUrn s fun u => keys.mapM fun k => String.ofList <$> u.upTo k

/-- `str()` after each prefix of a list of assignments. -/
def strAfter (u : Urn) : List UrnOp → List (Except PyErr String)
  | [] => []
  | op :: ops => (String.ofList <$> (Prod.fst <$> (u.step op).str)) :: strAfter ((u.step op).step .readStr) ops

def full : String := "urn:cts:greekLit:tlg0012.tlg001.mth-01:1.1@Achilles-1.10@the[2]"

-- test_str_function
example : ofUrn full (fun u => String.ofList <$> Prod.fst <$> u.str) = .ok full := by decide +kernel
-- test_properties
example : ofUrn full (fun u => .ok [u.ns, (u.step (.setNs (some "dts".toList))).ns, u.cts, u.tg, u.wk, u.ver]) =
    .ok [some "cts".toList, some "dts".toList, some "greekLit".toList, some "tlg0012".toList, some "tlg001".toList, some "mth-01".toList] := by
  decide +kernel
example : ofUrn full (fun u => .ok u.ref) = ref "1.1@Achilles-1.10@the[2]" := by decide +kernel
-- test_upTo
example : upTos full [100, 0, 1, 2, 3, 4, 5, 6] = .ok [full, "urn:cts:greekLit", "urn:cts:greekLit:tlg0012", "urn:cts:greekLit:tlg0012.tlg001",
    "urn:cts:greekLit:tlg0012.tlg001.mth-01", full, "urn:cts:greekLit:tlg0012.tlg001.mth-01:1.1@Achilles",
    "urn:cts:greekLit:tlg0012.tlg001.mth-01:1.10@the[2]"] := by decide +kernel
-- test_equality
example : ofUrn full (fun a => ofUrn full fun b => a.eq b) = .ok true := by decide +kernel
example : ofUrn full (fun a => ofUrn "urn:cts:greekLit:tlg0012.tlg001.mth-01:1.1@Achilles-1.10@the[3]" fun b => a.eq b) = .ok false := by decide +kernel
-- test_full_emptiness
example : upTos "urn:cts:greekLit" [100, 0] = .ok ["urn:cts:greekLit", "urn:cts:greekLit"] := by decide +kernel
example : ofUrn "urn:cts:greekLit" (fun u => .ok (u.tg, u.wk, u.ver, u.ref)) = .ok (none, none, none, none) := by decide +kernel
-- test_from_textgroup_emptiness
example : upTos "urn:cts:greekLit:textgroup" [100, 0, 1] = .ok ["urn:cts:greekLit:textgroup", "urn:cts:greekLit", "urn:cts:greekLit:textgroup"] := by decide +kernel
example : ofUrn "urn:cts:greekLit:textgroup" (fun u => .ok (u.wk, u.ver, u.ref)) = .ok (none, none, none) := by decide +kernel
-- test_set (the first of the two, which the second one hides)
example : ofUrn "urn:cts:greekLit:textgroup" (fun u => .ok (strAfter u [.setTg (some "tg".toList), .setCts (some "ns".toList),
      .setWk (some "wk".toList), .setRef (.text "1-2".toList), .setVer (some "vs".toList)])) =
    .ok [.ok "urn:cts:greekLit:tg", .ok "urn:cts:ns:tg", .ok "urn:cts:ns:tg.wk", .ok "urn:cts:ns:tg.wk:1-2", .ok "urn:cts:ns:tg.wk.vs:1-2"] := by
  decide +kernel
-- test_from_work_emptiness, test_from_text_emptiness
example : upTos "urn:cts:greekLit:textgroup.work" [100, 0, 1, 2] =
    .ok ["urn:cts:greekLit:textgroup.work", "urn:cts:greekLit", "urn:cts:greekLit:textgroup", "urn:cts:greekLit:textgroup.work"] := by decide +kernel
example : ofUrn "urn:cts:greekLit:textgroup.work" (fun u => .ok (u.ver, u.ref)) = .ok (none, none) := by decide +kernel
example : upTos "urn:cts:greekLit:textgroup.work.text" [100, 0, 1, 2, 3] =
    .ok ["urn:cts:greekLit:textgroup.work.text", "urn:cts:greekLit", "urn:cts:greekLit:textgroup", "urn:cts:greekLit:textgroup.work",
      "urn:cts:greekLit:textgroup.work.text"] := by decide +kernel
example : ofUrn "urn:cts:greekLit:textgroup.work.text" (fun u => .ok u.ref) = .ok none := by decide +kernel
-- test_no_end_text_emptiness
example : upTos "urn:cts:greekLit:textgroup.work.text:1" [100, 0, 1, 2, 3, 4, 10] =
    .ok ["urn:cts:greekLit:textgroup.work.text:1", "urn:cts:greekLit", "urn:cts:greekLit:textgroup", "urn:cts:greekLit:textgroup.work",
      "urn:cts:greekLit:textgroup.work.text", "urn:cts:greekLit:textgroup.work.text:1", "urn:cts:greekLit:textgroup.work.text"] := by decide +kernel
example : ofUrn "urn:cts:greekLit:textgroup.work.text:1" (fun u => .ok (u.ref, u.ref.map Ref.stop)) =
    (ref "1").map fun r => (r, some none) := by decide +kernel
-- test_missing_text_in_passage_emptiness
example : upTos "urn:cts:greekLit:textgroup.work:1-2" [100, 0, 1, 2, 10, 4, 5, 6] =
    .ok ["urn:cts:greekLit:textgroup.work:1-2", "urn:cts:greekLit", "urn:cts:greekLit:textgroup", "urn:cts:greekLit:textgroup.work",
      "urn:cts:greekLit:textgroup.work", "urn:cts:greekLit:textgroup.work:1-2", "urn:cts:greekLit:textgroup.work:1",
      "urn:cts:greekLit:textgroup.work:2"] := by decide +kernel
example : ofUrn "urn:cts:greekLit:textgroup.work:1-2" (fun u => .ok (u.ref.map Ref.start, u.ref.map Ref.stop, u.ver)) =
    .ok (some "1".toList, some (some "2".toList), none) := by decide +kernel
-- test_warning_on_empty
example : Urn.parse "urn:cts".toList = .error .valueError := by decide +kernel
example : upTos "urn:cts:ns:tg.work:1" [3] = .error .keyError := by decide +kernel
-- test_len, test_greater, test_lower
example : ofUrn "urn:cts:greekLit" (fun u => .ok u.len) = .ok 2 := by decide +kernel
example : ofUrn "urn:cts:greekLit" (fun a => ofUrn "urn:cts:greekLit:textgroup" fun b => .ok (b.gt a, a.lt b)) = .ok (true, true) := by decide +kernel
-- test_set (the second)
example : ofUrn "urn:cts:latinLit:phi1294.phi002.perseus-lat2" (fun u => .ok (strAfter u [.setRef (.text "1.1".toList), .setRef (.text "2.2".toList),
      .setVer (some "perseus-eng2".toList), .setWk (some "phi001".toList), .setTg (some "phi1293".toList), .setCts (some "greekLit".toList)])) =
    .ok [.ok "urn:cts:latinLit:phi1294.phi002.perseus-lat2:1.1", .ok "urn:cts:latinLit:phi1294.phi002.perseus-lat2:2.2",
      .ok "urn:cts:latinLit:phi1294.phi002.perseus-eng2:2.2", .ok "urn:cts:latinLit:phi1294.phi001.perseus-eng2:2.2",
      .ok "urn:cts:latinLit:phi1293.phi001.perseus-eng2:2.2", .ok "urn:cts:greekLit:phi1293.phi001.perseus-eng2:2.2"] := by decide +kernel

end Verif.Tests
