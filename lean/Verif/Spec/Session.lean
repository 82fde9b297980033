/-
Specification of sessions: what is meant by the history of a program, by the log one sees, and by a run of the user's model.
-/
import Verif.Model.Session

namespace Logix.Spec
variable {K : Type}

/-- The operations of a history with their outcomes (the exception raised, if any). -/
def outcomes [Field K] (E : SEnv K) : List (SOp K) → Sess K → List (SOp K × Option PyErr)
  | [], _ => []
  | o :: rest, s => (o, (o.run E s).2) :: outcomes E rest (o.run E s).1

/-- The modules selected by calls of `watch` since the last completed `clear`, with repetitions. -/
def watched : List (SOp K × Option PyErr) → List Nat :=
  List.foldl (fun l o => match o with
    | (.watch sel, _) => l ++ sel.map Prod.snd
    | (.clear, none) => []
    | _ => l) []

/-- Is saving globally enabled after the history: the last of `save(...)` and `eval()` decides. -/
def globalSave : List (SOp K) → Bool :=
  List.foldl (fun b o => match o with
    | .save e => e
    | .eval => false
    | _ => b) false

/-- Was the last `run(...)` called with `save=True`? -/
def batchSave : List (SOp K) → Bool :=
  List.foldl (fun b o => match o with
    | .call _ _ e => e
    | _ => b) false

/-- The number of hooks on a module. -/
def hooksOn (l : List ModHook) (m : Nat) : Nat := l.countP fun h => h.mod = m

/-- The operations that open a batch for hooks: `__enter__` and `start`. -/
inductive Opens : SOp K → Prop where
  | enter : Opens .enter
  | start (ids mask) : Opens (.start ids mask)

/-- The operations that make a batch context, in both programming interfaces: `with run(ids, mask, save=...)` and `run.start(ids, mask)`. -/
inductive Context : List (SOp K) → List PyStr → Option (Tensor K) → Prop where
  | with (ids mask save) : Context [.call ids mask save, .enter] ids mask
  | start (ids mask) : Context [.start ids mask] ids mask

/-- The operations that end a batch context, and the flag given to them or to the last `run(...)`. -/
inductive Closes (ops : List (SOp K)) : SOp K → Bool → Prop where
  | exit : Closes ops .exit (batchSave ops)
  | end (b) : Closes ops (.end b) b

/-- What the user's model does: tensors, module calls and gradients; also `watch_activation`. -/
inductive IsRun : SOp K → Prop where
  | alloc (o) : IsRun (.alloc o)
  | forward (m x y) : IsRun (.forward m x y)
  | gradAt (y g) : IsRun (.gradAt y g)
  | backward (y g) : IsRun (.backward y g)
  | watchActivation (d) : IsRun (.watchActivation d)

/-- A run of the model that refers to its tensors by numbers counted from the first tensor it makes itself, placed after `k` other tensors. -/
def shift (k : Nat) : SOp K → SOp K
  | .forward m x y => .forward m (x + k) (y + k)
  | .gradAt y g => .gradAt (y + k) (g + k)
  | .backward y g => .backward (y + k) (g + k)
  | .watchActivation d => .watchActivation (d.map fun e => (e.1, e.2 + k))
  | o => o

/-- The tensors of the user's program, in the order in which they are made, as they are made. -/
def allocs : List (SOp K) → List (TObj K) :=
  List.flatMap fun o => match o with
    | .alloc t => [t]
    | _ => []

/-- Is no context open, and has none been since the last completed `clear`? (`watch_activation` also needs a context.) -/
def unhooked : List (SOp K × Option PyErr) → Bool :=
  List.foldl (fun b o => match o with
    | (.enter, _) => false
    | (.start _ _, _) => false
    | (.watchActivation _, _) => false
    | (.clear, none) => true
    | _ => b) true

/-- The uses of a module in a model run whose gradients arrive: for every arrival of a gradient `g` at the output of a use of the module (the
number of) the input of that use, and `g`. `calls` are the inputs and outputs of the uses so far. -/
def uses (m : Nat) : List (SOp K) → List (Nat × Nat) → List (Nat × Nat)
  | [], _ => []
  | .forward m' x y :: rest, calls => uses m rest (if m' = m then calls ++ [(x, y)] else calls)
  | .gradAt y g :: rest, calls => (calls.filter fun c => c.2 = y).map (fun c => (c.1, g)) ++ uses m rest calls
  | _ :: rest, calls => uses m rest calls

/-- The tensor logged for a module and log type, if there is one. -/
def logged (s : Sess K) (name ty : PyStr) : Option (Tensor K) :=
  ((Dict.get? s.log name).bind fun d => Dict.get? d ty).bind fun r => (s.obj r).map TObj.val

/-- A log as one sees it at some moment: the tensors by module and log type. -/
def view (s : Sess K) (d : Dict PyStr (Dict PyStr TRef)) : Dict PyStr (Dict PyStr (Option (TObj K))) :=
  d.map fun m => (m.1, m.2.map fun t => (t.1, s.obj t.2))

/-- The log as one sees it: the data ids and the tensors by module and log type. -/
def seen (s : Sess K) : Option (List PyStr) × Dict PyStr (Dict PyStr (Option (TObj K))) :=
  (s.dataId, view s s.log)

end Logix.Spec
