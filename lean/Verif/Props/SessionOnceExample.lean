/-
A history that meets the hypothesis of `C25_once_partial`, with `log` for all three log types.
-/
import Verif.Props.SessionOnce
import Verif.Props.SessionExample

namespace Logix.ExSess
open Spec Sess

instance (s : Sess Rat) (ty : LogType) : Decidable (logsType s ty) := by
  cases ty <;> unfold logsType <;> infer_instance

instance (s : Sess Rat) (o : SOp Rat) : Decidable (FirstTime s o) := by
  unfold FirstTime
  infer_instance

def logAll : SOp Rat := .setup { forward := some [.name ['l', 'o', 'g']], backward := some [.name ['l', 'o', 'g']], grad := some [.name ['l', 'o', 'g']] }

/-- Two modules one after the other, in two batches; the output of the first is watched as well. -/
def chain : List (SOp Rat) := [logAll, .watch [(na, 0), (nb, 1)], .call [i1] none false, .enter, .alloc (inp 2), .alloc (out 6), .alloc (out 18), .alloc (inp 5), .alloc (inp 7),
  .forward 0 0 1, .watchActivation [(['z'], 1)], .forward 1 1 2, .gradAt 2 3, .backward 2 3, .gradAt 1 4, .backward 1 4, .exit, .call [i2] none false, .enter, .alloc (out 6), .alloc (out 18),
  .forward 0 0 5, .forward 1 5 6, .gradAt 6 3, .backward 6 3, .exit]

theorem chain_first : ∀ pre o, pre ++ [o] <+: chain → FirstTime (runHistory E pre s₀) o := by
  have h : ∀ i : Fin chain.length, FirstTime (runHistory E (chain.take i) s₀) chain[i] := by decide +kernel
  intro pre o hp
  obtain ⟨rest, hr⟩ := hp
  have hl : pre.length < chain.length := by rw [← hr]; simp
  have := h ⟨pre.length, hl⟩
  have e1 : chain.take pre.length = pre := by rw [← hr, List.append_assoc, List.take_left]
  have e2 : chain[pre.length] = o := by
    have : chain[pre.length]? = some o := by rw [← hr]; simp
    rw [List.getElem?_eq_getElem hl] at this
    exact Option.some.inj this
  simp only [e1] at this
  rw [← e2]
  exact this

/-- No operation raises, the tensors of the user are in the log themselves, and they are as they were made. -/
example : (outcomes E chain s₀).map (fun o => o.2) = List.replicate 26 none ∧
    entry (runHistory E chain s₀) nb (LogType.name .forward) = some (.user 5) ∧ (runHistory E chain s₀).user = [inp 2, out 6, out 18, inp 5, inp 7, out 6, out 18] :=
  ⟨by decide +kernel, by decide +kernel, (C25_once_partial E chain 1 1000 [] chain_first).trans rfl⟩

/-- In the history of `C25_refuted` the second call of the module is not the first time. -/
example : ¬ FirstTime (runHistory E (reuse.take 8) s₀) (.forward 0 1 2) := by decide +kernel

end Logix.ExSess
