/-
Specification vocabulary for configurations.
-/
import Verif.Model.Config

namespace Logix.Spec

/-- A setting a user can see: a field of the configuration, or a field of one of its sections. -/
inductive Setting
  | top (field : String)
  | sub (sect field : String)

/-- Every setting of logix/config.py. -/
def allSettings : List Setting :=
  [.top "project", .top "log_dir", .top "root_dir",
   .sub "logging" "log_dir", .sub "logging" "flush_threshold", .sub "logging" "num_workers", .sub "logging" "cpu_offload",
   .sub "logging" "log_dtype",
   .sub "lora" "init", .sub "lora" "rank", .sub "lora" "parameter_sharing", .sub "lora" "parameter_sharing_groups"]

/-- The value of a setting in a configuration object. -/
def value (c : ConfigObj) : Setting → Option Yaml
  | .top f => match Dict.get? c f.toList with
    | some (.plain y) => some y
    | _ => none
  | .sub s f => match Dict.get? c s.toList with
    | some (.inst _ a) => Dict.get? a f.toList
    | _ => none

/-- The second mapping is the first one, with its keys and the keys of its sections possibly in another order. -/
structure SameFile (d e : List (PyStr × Yaml)) : Prop where
  keys : (e.map Prod.fst).Nodup
  same : ∀ k, match Dict.get? d k with
    | none => Dict.get? e k = none
    | some (.dict a) => ∃ b, Dict.get? e k = some (.dict b) ∧ (b.map Prod.fst).Nodup ∧ ∀ k', Dict.get? b k' = Dict.get? a k'
    | some y => Dict.get? e k = some y

/-- A section object of the given class whose settings all have values that are not mappings. -/
def GoodSection (c : ConfigObj) (sect : String) (cls : SubClass) : Prop :=
  ∃ a, Dict.get? c sect.toList = some (.inst cls a) ∧ ∀ f ∈ cls.fields, ∃ y, Dict.get? a f.1 = some y ∧ y.isDict = false

/-- A configuration object as the program builds it: string project and directories, and two sections. -/
structure Legal (c : ConfigObj) : Prop where
  project : ∃ s, value c (.top "project") = some (.str s)
  rootDir : ∃ s, value c (.top "root_dir") = some (.str s)
  logDir : ∃ y, value c (.top "log_dir") = some y ∧ y.isDict = false
  logging : GoodSection c "logging" .logging
  lora : GoodSection c "lora" .lora

/-- `dir` is `os.path.join(root, project)`: an absolute `project` stands for itself, otherwise there is a slash between the two unless `root` is empty
or ends with one. -/
def Joined (root project dir : PyStr) : Prop :=
  (['/'] <+: project ∧ dir = project) ∨
    (¬ ['/'] <+: project ∧ (root = [] ∨ ['/'] <:+ root) ∧ dir = root ++ project) ∨
    (¬ ['/'] <+: project ∧ root ≠ [] ∧ ¬ ['/'] <:+ root ∧ dir = root ++ ['/'] ++ project)

/-- All log directories are root_dir/project. -/
def OneLogDir (c : ConfigObj) : Prop :=
  ∃ root project dir, value c (.top "root_dir") = some (.str root) ∧ value c (.top "project") = some (.str project) ∧ Joined root project dir ∧
    value c (.top "log_dir") = some (.str dir) ∧ value c (.sub "logging" "log_dir") = some (.str dir)

end Logix.Spec
