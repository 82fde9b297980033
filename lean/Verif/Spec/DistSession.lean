/-
Specification: several processes that run logging programs, and the data of all of them.
-/
import Verif.Spec.SessionReturns
import Verif.Spec.SessionInfluence
import Verif.Model.DistSession

namespace Logix.Spec
variable {K : Type}

/-- One process of a distributed run: its number of writer processes, flush threshold and files, the operations that configure it, the batch context it
opens, the program that goes on from there, and the shapes and devices of its tensors. -/
structure Process (K : Type) where
  workers : Nat
  threshold : Int
  files : FS
  setup : List (SOp K)
  ctx : List (SOp K)
  ids : List PyStr
  body : List (SOp K)
  lay : Layout

section
variable [Field K]

/-- The process when it is configured. -/
def Process.before (E : SEnv K) (p : Process K) : Sess K := runHistory E p.setup (Sess.init p.workers p.threshold p.files)

/-- The process runs its program without an exception, up to `u`. -/
def Process.Runs (E : SEnv K) (p : Process K) (u : Sess K) : Prop :=
  SAct.each (SOp.run E) (p.ctx ++ p.body.map (shift (p.before E).user.length)) (p.before E) = (u, none)

/-- The program of the process fits together, for modules of these names and shapes, and uses no masks. -/
structure Process.Fits (E : SEnv K) (keys : List PyStr) (mods : PyStr → Nat) (rows cols : PyStr → Nat) (p : Process K) : Prop where
  configures : ∀ o ∈ p.setup, Configures o
  context : Context p.ctx p.ids none
  unmasked : ∀ o ∈ p.body, Unmasked o
  rows : p.lay.rows = rows
  cols : p.lay.cols = cols
  configured : Configured (p.before E) keys mods p.lay
  fits : ProgramFits E (p.before E).opt keys mods p.lay [] (Saving.after (p.setup ++ p.ctx)) (fun _ => ⟨none, [], [], []⟩) p.body

/-- The modules and log types that a dictionary of statistics has entries for, in its order. -/
def outline (d : StateDict K) : List (PyStr × List PyStr) := d.map fun e => (e.1, match e.2 with | .node sub => Dict.keys sub | .leaf _ => [])

/-- Two states have means and covariances of the same quantities, in the same order. -/
def SameQuantities (s s' : LState K) : Prop := ∀ n ∈ [nMean, nCov], (Dict.get? s.attrs n).map outline = (Dict.get? s'.attrs n).map outline

/-- The processes met the same quantities in the same order. -/
def InStep (E : SEnv K) (ps : List (Process K)) : Prop := ∀ p ∈ ps, ∀ p' ∈ ps, ∀ u u', p.Runs E u → p'.Runs E u' → SameQuantities u.st u'.st

/-- The same operation on other data: the tensors that the program makes, the ids and masks of the batches, and whether logs are saved may differ.
`finalize`, `clear` and requests of analyses are left out. -/
def SameOp : SOp K → SOp K → Prop
  | .alloc _, .alloc _ => True
  | .forward mod x y, .forward mod' x' y' => mod = mod' ∧ x = x' ∧ y = y'
  | .gradAt y g, .gradAt y' g' => y = y' ∧ g = g'
  | .backward y g, .backward y' g' => y = y' ∧ g = g'
  | .watchActivation d, .watchActivation d' => d = d'
  | .call _ _ _, .call _ _ _ => True
  | .enter, .enter => True
  | .exit, .exit => True
  | .start _ _, .start _ _ => True
  | .end _, .end _ => True
  | .log _ _, .log _ _ => True
  | .save _, .save _ => True
  | .eval, .eval => True
  | .setup kw, .setup kw' => kw = kw'
  | .watch sel, .watch sel' => sel = sel'
  | .getLogCopy, .getLogCopy => True
  | _, _ => False

/-- Two processes run the same program, each on its own data. -/
structure SameProgram (p p' : Process K) : Prop where
  setup : List.Forall₂ SameOp p.setup p'.setup
  ctx : List.Forall₂ SameOp p.ctx p'.ctx
  body : List.Forall₂ SameOp p.body p'.body

/-- `xs` are the inputs of a module in the programs of all processes. -/
def AllInputs (m : Nat) (ps : List (Process K)) (xs : List (Tensor K)) : Prop :=
  ∃ xss, List.Forall₂ (fun p xs => Values (allocs p.body) (inputs m p.body) xs) ps xss ∧ xs = xss.flatten

/-- `gs` are the gradients of its outputs, over all calls that the backward pass came through. -/
def AllOutGrads (m : Nat) (ps : List (Process K)) (gs : List (Tensor K)) : Prop :=
  ∃ gss, List.Forall₂ (fun p gs => Values (allocs p.body) ((notes outGrad m ⟨none, [], [], []⟩ p.body).map Prod.fst) gs) ps gss ∧ gs = gss.flatten

/-- `gs` are its per-sample gradients in the batches of all processes. -/
def AllBatchGrads (E : SEnv K) (m : Nat) (ps : List (Process K)) (gs : List (Tensor K)) : Prop :=
  ∃ gss, List.Forall₂ (fun p gs => List.Forall₂ (BatchGrad (allocs p.body) (E.kind m)) ((notes batchGrads m ⟨none, [], [], []⟩ p.body).map Prod.fst) gs) ps gss ∧
    gs = gss.flatten

end
end Logix.Spec
