/-
C105: a concrete session with two batches.
-/
import Verif.Props.SessionStats
import Verif.Props.SessionExample

namespace Logix.ExSess
open Spec Sess

def pCov : PyStr := ['c', 'o', 'v', 'a', 'r', 'i', 'a', 'n', 'c', 'e']
def pMean : PyStr := ['m', 'e', 'a', 'n']
/-- The modules 0 and 1 are watched, with statistics of all log types. -/
def statConf : List (SOp Rat) := [
  .setup { forward := some [.name pCov, .name pMean], backward := some [.name pCov], grad := some [.name ['l', 'o', 'g'], .name pCov] },
  .alloc (inp 1), .watch [(na, 0), (nb, 1)]]
def sStat : Sess Rat := runHistory E statConf s₀

/-- In the first batch the module 0 is called twice, in the second once, with a call of the module 1 in between. -/
def statBody : List (SOp Rat) := [.alloc (inp 2), .alloc (out 6), .alloc (inp 5), .alloc (inp 3), .alloc (out 9), .alloc (inp 7),
  .forward 0 0 1, .forward 1 0 1, .forward 0 3 4, .gradAt 4 5, .backward 4 5, .gradAt 1 2, .backward 1 2, .exit,
  .call [i2] none false, .enter, .alloc (out 9), .forward 0 3 6, .gradAt 6 5, .backward 6 5, .end false]

example : ∀ o ∈ statConf, Configures o := by
  simp only [statConf, List.mem_cons, List.not_mem_nil, or_false, forall_eq_or_imp, forall_eq]
  exact ⟨trivial, trivial, trivial⟩
example : Context [.call [i1] none false, .enter] [i1] (none : Option (Tensor Rat)) := .with ..
example : ∀ o ∈ statBody, Logs na o ∧ Unmasked o := by
  simp only [statBody, List.mem_cons, List.not_mem_nil, or_false, forall_eq_or_imp, forall_eq]
  simp [Logs, Unmasked, Masks]
example : Watches sStat 0 na ∧ OnlyStatistics sStat.opt ∧ sStat.opt.grad.head? = some .log ∧ sStat.user.length = 1 ∧
    sStat.opt.forward.count .covariance = 1 ∧ sStat.opt.forward.count .mean = 1 ∧ sStat.opt.backward.count .covariance = 1 ∧
    sStat.opt.grad.tail.count .covariance = 1 := by unfold Watches OnlyStatistics; decide +kernel
example : inputs 0 statBody = [0, 3, 3] ∧ (notes outGrad 0 ⟨none, [], [], []⟩ statBody).map Prod.fst = [5, 2, 5] ∧
    (notes batchGrads 0 ⟨none, [], [], []⟩ statBody).map Prod.fst = [[(3, 5), (0, 2)], [(3, 5)]] := by decide +kernel

def tStat : Sess Rat × Option PyErr :=
  SAct.each (SOp.run E) ([.call [i1] none false, .enter] ++ statBody.map (shift 1) ++ [.finalize ⟨[], none⟩]) sStat
example : tStat.2 = none := by decide +kernel
example : tensorAt tStat.1.st.attrs nCov [na, LogType.name .forward] = some ⟨.cpu, [1, 1], [(2 * 2 + 3 * 3 + 3 * 3) / 3], rfl⟩ ∧
    tensorAt tStat.1.st.attrs nMean [na, LogType.name .forward] = some ⟨.cpu, [1], [(2 + 3 + 3) / 3], rfl⟩ ∧
    tensorAt tStat.1.st.attrs nCov [na, LogType.name .backward] = some ⟨.cpu, [1, 1], [(7 * 7 + 5 * 5 + 7 * 7) / 3], rfl⟩ ∧
    tensorAt tStat.1.st.attrs nCov [na, LogType.name .grad] =
      some ⟨.cpu, [1, 1], [((2 * 5 + 3 * 7) * (2 * 5 + 3 * 7) + (3 * 7) * (3 * 7)) / 2], rfl⟩ := by decide +kernel

end Logix.ExSess
