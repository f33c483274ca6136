import Verif.Model.LocalResolver
/-!
Errors while folders are parsed: MyCapytain/resolvers/cts/local.py 75-102 (the resolver that is made), 125-181 (reading of metadata
files), 237-266 (dispatching) and 276-312. Works described in the file of a textgroup itself are not modelled here. The messages logged about single texts are not modelled.
-/
namespace Verif.Model
open Verif.Py

/-- A metadata file of a work: its name, and the description or the exception that reading it raises (local.py 168-181). -/
structure WorkRead where
  file : Str
  parsed : Except PyErr WorkFile

/-- A metadata file of a textgroup, and the files of works in the folders below (local.py 139-149, 286-293). -/
structure TgRead where
  file : Str
  parsed : Except PyErr Str
  works : List WorkRead

/-- The two wrappers and the assignment of their result to several names: local.py 125-137, 151-165, 288, 296. The names of files that are
logged, and the result. Without `RAISE_ON_GENERIC_PARSING_ERROR` the wrapper returns `None`, which cannot be taken apart. -/
def wrapRead {α : Type} (raises : Bool) (file : Str) (r : Except PyErr α) : List Str × Except PyErr α :=
  match r with
  | .ok a => ([], .ok a)
  | .error e => ([file], .error (if raises then e else .typeError))

/-- A loop of such calls, which stops at the first exception. -/
def readLoop {α : Type} (raises : Bool) : List (Str × Except PyErr α) → List Str × Except PyErr (List α)
  | [] => ([], .ok [])
  | (file, r) :: rest =>
    match wrapRead raises file r with
    | (log, .error e) => (log, .error e)
    | (log, .ok a) =>
      match readLoop raises rest with
      | (log', .error e) => (log ++ log', .error e)
      | (log', .ok as) => (log ++ log', .ok (a :: as))

/-- The loops over the works of each textgroup: local.py 292-297. -/
def readWorks (raises : Bool) : List TgRead → List Str × Except PyErr (List (List WorkFile))
  | [] => ([], .ok [])
  | t :: rest =>
    match readLoop raises (t.works.map fun w => (w.file, w.parsed)) with
    | (log, .error e) => (log, .error e)
    | (log, .ok ws) =>
      match readWorks raises rest with
      | (log', .error e) => (log ++ log', .error e)
      | (log', .ok wss) => (log ++ log', .ok (ws :: wss))

/-- What `parse` leaves: the names of files and folders that are logged, the dispatcher afterwards (`none` when an exception other than
`UndispatchedTextError` came from dispatching, which may have happened half way), and the exception. -/
structure ParseRun where
  log : List Str
  after : Option Dispatcher
  error : Option PyErr

/-- The dispatching routine: local.py 252-266, 304-306. -/
def dispatchRun (raises : Bool) : Dispatcher → List (TgV × Str) → ParseRun
  | d, [] => ⟨[], some d, none⟩
  | d, (g, path) :: rest =>
    match resolverDispatch d g path with
    | .ok d' => dispatchRun raises d' rest
    | .error .undispatched =>
      if raises then ⟨[path], some d, some .undispatched⟩
      else let r := dispatchRun raises d rest; { r with log := path :: r.log }
    | .error e => ⟨[], none, some e⟩

/-- `parse(resource)`: local.py 276-312, from the files found. All files are read before anything is dispatched. -/
def parseRun (files : Files) (raiseParsing raiseUndispatched : Bool) (d : Dispatcher) (found : List TgRead) : ParseRun :=
  match readLoop raiseParsing (found.map fun t => (t.file, t.parsed)) with
  | (log, .error e) => ⟨log, some d, some e⟩
  | (log, .ok ids) =>
    match readWorks raiseParsing found with
    | (log', .error e) => ⟨log ++ log', some d, some e⟩
    | (log', .ok wss) =>
      let tgs := ((found.map TgRead.file).zip (ids.zip wss)).map fun x => placeTg files ⟨x.2.1, x.2.2, x.1⟩
      let r := dispatchRun raiseUndispatched d (tgs.map fun t => (buildTg t.id t.works, t.path))
      { r with log := log ++ log' ++ r.log }

/-- The collection of a resolver that is made without a dispatcher: local.py 81-86. -/
def defaultRoot : RootV := ⟨['d', 'e', 'f', 'a', 'u', 'l', 't', 'T', 'i', 'c'], [⟨['d', 'e', 'f', 'a', 'u', 'l', 't'], []⟩]⟩

/-- The dispatcher of a new resolver: local.py 81-88. -/
def resolverDispatcher (given : Option Dispatcher) : Except PyErr Dispatcher :=
  match given with
  | some d => .ok d
  | none => mkDispatcher defaultRoot none

/-- A new resolver: local.py 75-102. `none` for `autoparse=False`. -/
def newResolver (files : Files) (raiseParsing raiseUndispatched : Bool) (given : Option Dispatcher) (found : Option (List TgRead)) :
    Except PyErr ParseRun :=
  match resolverDispatcher given with
  | .error e => .error e
  | .ok d =>
    match found with
    | none => .ok ⟨[], some d, none⟩
    | some l => .ok (parseRun files raiseParsing raiseUndispatched d l)

end Verif.Model
