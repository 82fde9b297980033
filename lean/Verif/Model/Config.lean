/-
Configuration: logix/config.py, and the parts of logix/logix.py that use it.
-/
import Verif.Model.Nested

namespace Logix

/-- A value read from or written to a YAML file. `atom` stands for every value that is neither a string nor a mapping (numbers,
booleans, null, lists), identified by a number. Mappings have string keys. The text form is not modelled: a dumped value is read back
with the same content, possibly with mappings in another order (`yaml.dump` sorts keys). -/
inductive Yaml where
  | str (s : PyStr)
  | atom (n : Nat)
  | dict (d : List (PyStr × Yaml))

/-- `isinstance(value, dict)` -/
def Yaml.isDict : Yaml → Bool
  | .dict _ => true
  | _ => false

/-- The dataclasses of logix/config.py that are nested in `Config`. -/
inductive SubClass
  | logging | lora
  deriving DecidableEq

/-- An attribute value of a `Config` object: a plain value or an instance of a nested dataclass with its attributes. -/
inductive CVal where
  | plain (y : Yaml)
  | inst (cls : SubClass) (attrs : List (PyStr × Yaml))

/-- A `Config` object: its attributes. -/
abbrev ConfigObj := Dict PyStr CVal

def fProject : PyStr := ['p', 'r', 'o', 'j', 'e', 'c', 't']
def fLogDir : PyStr := ['l', 'o', 'g', '_', 'd', 'i', 'r']
def fRootDir : PyStr := ['r', 'o', 'o', 't', '_', 'd', 'i', 'r']
def fLogging : PyStr := ['l', 'o', 'g', 'g', 'i', 'n', 'g']
def fLora : PyStr := ['l', 'o', 'r', 'a']
def fFlush : PyStr := ['f', 'l', 'u', 's', 'h', '_', 't', 'h', 'r', 'e', 's', 'h', 'o', 'l', 'd']
def fWorkers : PyStr := ['n', 'u', 'm', '_', 'w', 'o', 'r', 'k', 'e', 'r', 's']
def fOffload : PyStr := ['c', 'p', 'u', '_', 'o', 'f', 'f', 'l', 'o', 'a', 'd']
def fDtype : PyStr := ['l', 'o', 'g', '_', 'd', 't', 'y', 'p', 'e']
def fInit : PyStr := ['i', 'n', 'i', 't']
def fRank : PyStr := ['r', 'a', 'n', 'k']
def fSharing : PyStr :=
  ['p', 'a', 'r', 'a', 'm', 'e', 't', 'e', 'r', '_', 's', 'h', 'a', 'r', 'i', 'n', 'g']
def fGroups : PyStr := fSharing ++ ['_', 'g', 'r', 'o', 'u', 'p', 's']

/-- The declared fields of the nested dataclasses, in order, with their defaults; `none` for `field(init=False)`.
logix/config.py:58-68 (LoggingConfig) and 96-105 (LoRAConfig).
Atoms: 0 is None, 1 is False, 2 is True, `n + 10` is the number `n`. -/
def SubClass.fields : SubClass → List (PyStr × Option Yaml)
  | .logging => [(fLogDir, none), (fFlush, some (.atom 1000000010)), (fWorkers, some (.atom 11)), (fOffload, some (.atom 1)),
      (fDtype, some (.str ['n', 'o', 'n', 'e']))]
  | .lora => [(fInit, some (.str ['r', 'a', 'n', 'd', 'o', 'm'])), (fRank, some (.atom 74)), (fSharing, some (.atom 1)),
      (fGroups, some (.atom 0))]

/-- Constructor of a nested dataclass, `C(**kwargs)`: an unknown name, or a field with `init=False`, raises TypeError; other fields are
taken from the arguments or from the defaults. -/
def SubClass.construct (c : SubClass) (kwargs : List (PyStr × Yaml)) : Py (List (PyStr × Yaml)) :=
  if kwargs.all fun kv => (Dict.get? c.fields kv.1).join.isSome then
    .ok (c.fields.filterMap fun f => f.2.map fun dflt => (f.1, (Dict.get? kwargs f.1).getD dflt))
  else .error .typeError

/-- `os.path.join(root, project)` -/
def osPathJoin (root project : PyStr) : PyStr :=
  if project.head? = some '/' then project
  else if root = [] ∨ root.getLast? = some '/' then root ++ project
  else root ++ ['/'] ++ project

/-- logix/config.py:168-176 `configure_log_dir`. A `root_dir` or `project` that is not a string raises TypeError, a `logging` that has no
attributes raises AttributeError. The creation of the directory is left out. -/
def ConfigObj.configureLogDir (c : ConfigObj) : ConfigObj × Py Unit :=
  match Dict.get? c fRootDir, Dict.get? c fProject with
  | some (.plain (.str root)), some (.plain (.str project)) =>
    let c := Dict.set c fLogDir (.plain (.str (osPathJoin root project)))
    match Dict.get? c fLogging with
    | some (.inst cls attrs) => (Dict.set c fLogging (.inst cls (Dict.set attrs fLogDir (.str (osPathJoin root project)))), .ok ())
    | _ => (c, .error .attributeError)
  | _, _ => (c, .error .typeError)

/-- logix/config.py:160-163: a mapping given for a nested dataclass is turned into an instance; anything else is kept. -/
def subArg (cls : SubClass) (given : Option Yaml) : Py CVal :=
  match given with
  | none =>
    match cls.construct [] with
    | .error e => .error e
    | .ok a => .ok (.inst cls a)
  | some (.dict d) =>
    match cls.construct d with
    | .error e => .error e
    | .ok a => .ok (.inst cls a)
  | some y => .ok (.plain y)

/-- logix/config.py:147-166: the constructor `Config(**kwargs)` with `__post_init__`. -/
def ConfigObj.construct (kwargs : List (PyStr × Yaml)) : Py ConfigObj :=
  if kwargs.all fun kv => kv.1 ∈ [fProject, fRootDir, fLogging, fLora] then
    match Dict.get? kwargs fProject with
    | none => .error .typeError
    | some project =>
      match subArg .logging (Dict.get? kwargs fLogging) with
      | .error e => .error e
      | .ok logging =>
        match subArg .lora (Dict.get? kwargs fLora) with
        | .error e => .error e
        | .ok lora =>
          let c : ConfigObj := [(fProject, .plain project),
            (fRootDir, .plain ((Dict.get? kwargs fRootDir).getD (.str ['.', '/', 'l', 'o', 'g', 'i', 'x']))),
            (fLogging, logging), (fLora, lora), (fLogDir, .plain (.atom 0))]
          match c.configureLogDir with
          | (_, .error e) => .error e
          | (c, .ok ()) => .ok c
  else .error .typeError

/-- logix/config.py:25-35 `init_config_from_yaml`. The file: none given, missing (AssertionError), or its content; a content that is no
mapping (an empty file is None) raises TypeError. -/
def initConfigFromYaml (project : PyStr) (file : Option (Option Yaml)) : Py ConfigObj :=
  match file with
  | none => ConfigObj.construct [(fProject, .str project)]
  | some none => .error .assertionError
  | some (some (.dict d)) => ConfigObj.construct (Dict.set d fProject (.str project))
  | some (some _) => .error .typeError

/-- logix/config.py:38-44 `load_config_from_dict` for a nested dataclass instance: its attributes hold plain values, so a mapping fails
the assertion (or, for an unknown name, raises AttributeError). -/
def loadSub (attrs : List (PyStr × Yaml)) : List (PyStr × Yaml) → List (PyStr × Yaml) × Py Unit
  | [] => (attrs, .ok ())
  | (name, value) :: rest =>
    match value with
    | .dict _ => (attrs, .error (if (Dict.get? attrs name).isSome then .assertionError else .attributeError))
    | y => loadSub (Dict.set attrs name y) rest

/-- logix/config.py:38-44 `load_config_from_dict` for the `Config` object. The object is modified in place, also when an error is raised
half way. -/
def ConfigObj.loadFrom (c : ConfigObj) : List (PyStr × Yaml) → ConfigObj × Py Unit
  | [] => (c, .ok ())
  | (name, value) :: rest =>
    match value with
    | .dict d =>
      match Dict.get? c name with
      | none => (c, .error .attributeError)
      | some (.plain _) => (c, .error .assertionError)
      | some (.inst cls attrs) =>
        match loadSub attrs d with
        | (attrs', .error e) => (Dict.set c name (.inst cls attrs'), .error e)
        | (attrs', .ok ()) => ConfigObj.loadFrom (Dict.set c name (.inst cls attrs')) rest
    | y => ConfigObj.loadFrom (Dict.set c name (.plain y)) rest

/-- logix/config.py:178-191 `load_config`; `none` is a missing file. -/
def ConfigObj.load (c : ConfigObj) (file : Option Yaml) : ConfigObj × Py Unit :=
  match file with
  | none => (c, .error .assertionError)
  | some (.dict d) =>
    match c.loadFrom d with
    | (c, .error e) => (c, .error e)
    | (c, .ok ()) => c.configureLogDir
  | some _ => (c, .error .attributeError)

/-- `asdict` of a nested dataclass instance: its declared fields in order; a missing attribute raises AttributeError. -/
def asdictSub (attrs : List (PyStr × Yaml)) : List (PyStr × Option Yaml) → Py (List (PyStr × Yaml))
  | [] => .ok []
  | (f, _) :: rest =>
    match Dict.get? attrs f with
    | none => .error .attributeError
    | some y =>
      match asdictSub attrs rest with
      | .error e => .error e
      | .ok d => .ok ((f, y) :: d)

/-- The declared fields of `Config`, logix/config.py:147-157. -/
def configFields : List PyStr := [fProject, fLogDir, fRootDir, fLogging, fLora]

/-- `asdict(config)` over the given fields. -/
def asdictConfig (c : ConfigObj) : List PyStr → Py (List (PyStr × Yaml))
  | [] => .ok []
  | f :: rest =>
    match Dict.get? c f with
    | none => .error .attributeError
    | some v =>
      match (match v with
        | .plain y => Except.ok y
        | .inst cls attrs =>
          match asdictSub attrs cls.fields with
          | .error e => .error e
          | .ok d => .ok (.dict d)) with
      | .error e => .error e
      | .ok y =>
        match asdictConfig c rest with
        | .error e => .error e
        | .ok d => .ok ((f, y) :: d)

/-- logix/config.py:193-202 `save_config` on rank 0: the content of the file written. -/
def ConfigObj.save (c : ConfigObj) : Py Yaml :=
  match asdictConfig c configFields with
  | .error e => .error e
  | .ok d => .ok (.dict d)

/-- logix/logix.py:565-567 `set_logging_config`; the argument is a `LoggingConfig` with the given attributes. -/
def ConfigObj.setLogging (c : ConfigObj) (attrs : List (PyStr × Yaml)) : ConfigObj × Py Unit :=
  match Dict.get? c fLogDir with
  | some (.plain y) => (Dict.set c fLogging (.inst .logging (Dict.set attrs fLogDir y)), .ok ())
  | _ => (c, .error .attributeError)

/-- logix/logix.py:569-570 `set_lora_config` -/
def ConfigObj.setLora (c : ConfigObj) (attrs : List (PyStr × Yaml)) : ConfigObj := Dict.set c fLora (.inst .lora attrs)

/-- The parts of a `LogIX` object concerned with configuration: `config`, `log_dir` (logix/logix.py:72-77) and what `HookLogger` and
`LogSaver` copied from the logging configuration when they were built (logix/logging/logger.py:45-49,
logix/logging/log_saver.py:25,30,33). -/
structure RunConfig where
  config : ConfigObj
  logDir : CVal
  logger : List (PyStr × Yaml)

/-- logix/logix.py:61-88 `__init__` -/
def RunConfig.construct (project : PyStr) (file : Option (Option Yaml)) (loggingConfig : Option (List (PyStr × Yaml))) :
    Py RunConfig :=
  match initConfigFromYaml project file with
  | .error e => .error e
  | .ok c =>
    match (match loggingConfig with | none => (c, Except.ok ()) | some a => c.setLogging a) with
    | (_, .error e) => .error e
    | (c, .ok ()) =>
      match Dict.get? c fLogDir, Dict.get? c fLogging with
      | some d, some (.inst _ attrs) => .ok ⟨c, d, attrs⟩
      | _, _ => .error .attributeError

/-- Configuration operations on a live run. `initFromLog` is the configuration part of logix/logix.py:494-507
`initialize_from_log`: `file` is the content of `config.yaml` in `self.log_dir`. -/
inductive ConfigOp
  | setLogging (attrs : List (PyStr × Yaml))
  | setLora (attrs : List (PyStr × Yaml))
  | initFromLog (file : Option Yaml)

/-- Effect of an operation on a live run. -/
def RunConfig.step (r : RunConfig) : ConfigOp → RunConfig × Py Unit
  | .setLogging a => ({ r with config := (r.config.setLogging a).1 }, (r.config.setLogging a).2)
  | .setLora a => ({ r with config := r.config.setLora a }, .ok ())
  | .initFromLog f => ({ r with config := (r.config.load f).1 }, (r.config.load f).2)

/-- A sequence of operations, each of which must succeed. -/
def RunConfig.steps (r : RunConfig) : List ConfigOp → Py RunConfig
  | [] => .ok r
  | op :: ops =>
    match r.step op with
    | (_, .error e) => .error e
    | (r, .ok ()) => r.steps ops

end Logix
