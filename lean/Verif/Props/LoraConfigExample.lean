/-
C101: examples and counterexample.
-/
import Verif.Props.LoraConfig
import Verif.Props.LoraIOExample

namespace Logix
namespace ExLoraCfg
open ExWatch ExLora ExLoraIO

/-- A model with two linear layers `a` and `b`, each with two inputs and two outputs. -/
def wide : MHeap ℚ :=
  ⟨[⟨[nModule], .user, [(na, 1), (nb, 2)], []⟩, ⟨[nLinear, nModule], .linear 2 2, [], [(nWeight, 0)]⟩,
    ⟨[nLinear, nModule], .linear 2 2, [], [(nWeight, 1)]⟩], [⟨⟨.cpu, [2, 2], [1, 2, 3, 4], rfl⟩, true⟩, ⟨⟨.cpu, [2, 2], [5, 6, 7, 8], rfl⟩, true⟩]⟩

theorem entry_wide {p : Nat} {k : PyStr} {c : Nat} (h : Entry wide p k c) : p = 0 ∧ ((k = na ∧ c = 1) ∨ (k = nb ∧ c = 2)) := by
  obtain ⟨m, hm, hk⟩ := h
  match p, hm with
  | 0, hm => cases hm; simpa using hk
  | 1, hm => cases hm; simp at hk
  | 2, hm => cases hm; simp at hk
  | n + 3, hm => simp [wide] at hm

theorem wide_wf : WFModel wide := by
  refine ⟨?_, ?_, ?_, ⟨fun i => 3 - i, ?_⟩, ?_⟩
  · intro p m hm
    match p, hm with
    | 0, hm => cases hm; decide
    | 1, hm => cases hm; decide
    | 2, hm => cases hm; decide
    | n + 3, hm => simp [wide] at hm
  · intro p k c h
    rcases entry_wide h with ⟨rfl, ⟨rfl, rfl⟩ | ⟨rfl, rfl⟩⟩ <;> decide
  · intro p k c h
    rcases entry_wide h with ⟨rfl, ⟨rfl, rfl⟩ | ⟨rfl, rfl⟩⟩ <;> decide
  · intro p k c h
    rcases entry_wide h with ⟨rfl, ⟨rfl, rfl⟩ | ⟨rfl, rfl⟩⟩ <;> decide
  · intro p m k i hm hk
    match p, hm with
    | 0, hm => cases hm; simp at hk
    | 1, hm => cases hm; simp at hk; simp [wide, hk.2]
    | 2, hm => cases hm; simp at hk; simp [wide, hk.2]
    | n + 3, hm => simp [wide] at hm

theorem wide_good : GoodModel wide 0 := by
  refine ⟨wide_wf, ?_, ?_, by decide⟩
  · intro p m hm
    match p, hm with
    | 0, hm => cases hm; exact ⟨by decide, by simp⟩
    | 1, hm => cases hm; exact ⟨by decide, by intro k i h; simp at h; rw [h.1]; decide⟩
    | 2, hm => cases hm; exact ⟨by decide, by intro k i h; simp at h; rw [h.1]; decide⟩
    | n + 3, hm => simp [wide] at hm
  · rintro ⟨m, hm, hc⟩
    cases hm
    simp at hc

/-- The configurations: rank 1, and rank 2. -/
def rank1 : LoraCfg := ⟨nRandom, 1, false, none⟩
def rank2 : LoraCfg := ⟨nRandom, 2, false, none⟩

/-- `watch(model)`; `add_lora(name_filter=["a"], lora_config=rank 1)`; `add_lora(name_filter=["b"], lora_config=rank 2)`. -/
def start : LRun ℚ := get ((⟨wide, none, .fresh, LState.init, ⟨nRandom, 7, false, none⟩, none, logDir, noDirs⟩ : LRun ℚ).watch 0 none none)
def args1 : LRun.Args := { nameFilter := some [na], loraConfig := some rank1 }
def args2 : LRun.Args := { nameFilter := some [nb], loraConfig := some rank2 }
def first : LRun ℚ := get (start.addLora (lib 1) true args1)
def second : LRun ℚ := get (first.addLora (lib 1) true args2)

theorem ok_start : (⟨wide, none, .fresh, LState.init, ⟨nRandom, 7, false, none⟩, none, logDir, noDirs⟩ : LRun ℚ).watch 0 none none = .ok start := good_get (by decide +kernel)
theorem ok_first : start.addLora (lib 1) true args1 = .ok first := good_get (by decide +kernel)
theorem ok_second : first.addLora (lib 1) true args2 = .ok second := good_get (by decide +kernel)

theorem start_good : GoodModel start.heap 0 := by
  obtain ⟨hv, _⟩ := LRun.watch_spec ok_start
  have := hv.model
  exact ⟨this.wf wide_good.model, this.wfParams wide_good.params, fun h => wide_good.container (this.leaf.2 h), by rw [← this.1]; decide⟩

theorem first_good : GoodModel first.heap 0 := by
  obtain ⟨h1, h2, x, _⟩ := addLora_layers (root := 0) (by decide +kernel) ok_first
  obtain ⟨w1, w2⟩ := x.wf start_good
  refine ⟨x.final.model.wf w1, x.final.model.wfParams w2, ?_, by decide +kernel⟩
  rintro ⟨m, hm, hc⟩
  have : (first.heap.mods[0]?).map (fun m => m.children.isEmpty) = some false := by decide +kernel
  rw [hm, Option.map_some, hc] at this
  cases this

theorem first_model : first.model = some 0 := by decide +kernel

/-- In the second call the module `b` is selected; the new module is number 10. -/
theorem second_place : LoraPlace first second args2 0 nb 2 10 := by
  refine ⟨by decide +kernel, ⟨⟨[nLinear, nModule], .linear 2 2, [], [(nWeight, 1)]⟩, by decide +kernel, rfl, Or.inl (by simp), ?_, ?_⟩, [], 0, nb, .nil, ?_, rfl, ?_⟩
  · have : InEffect args2.typeFilter first.watched.typeFilter = none := by decide +kernel
    rw [this]
    exact fun f hf => nomatch hf
  · have : InEffect args2.nameFilter first.watched.nameFilter = some [nb] := by decide +kernel
    rw [this]
    intro f hf
    cases hf
    exact fun _ => ⟨nb, by simp, List.infix_rfl⟩
  · exact ⟨⟨[nModule], .user, [(na, 6), (nb, 2)], []⟩, by decide +kernel, by simp⟩
  · exact ⟨⟨[nModule], .user, [(na, 6), (nb, 10)], []⟩, by decide +kernel, by simp⟩

/-- C101 is false for the code: `add_lora(name_filter=["b"], lora_config=rank 2)` after `add_lora(name_filter=["a"], lora_config=rank 1)` makes a layer of
rank 1 for `b`. -/
theorem C101_refuted : ¬ ∀ (L : LoraLib ℚ) (r : Bool) (s s' : LRun ℚ) (root : Nat) (a : LRun.Args) (c : LoraCfg), s.model = some root → GoodModel s.heap root →
    a.loraConfig = some c → s.addLora L r a = .ok s' → FollowsConfig s s' a root c := by
  intro H
  obtain ⟨m, hm, hr⟩ := (H (lib 1) true first second 0 args2 rank2 first_model first_good rfl ok_second).rank _ _ _ second_place
  have h2 : first.heap.mods[2]? = some ⟨[nLinear, nModule], .linear 2 2, [], [(nWeight, 1)]⟩ := by decide +kernel
  rw [h2] at hm
  obtain rfl := Option.some.inj hm
  obtain ⟨⟨x, ⟨m', hx1, hx2⟩, t, ht1, ht2⟩, _⟩ := hr
  have h10 : (second.heap.mods[10]?).map MObj.children = some [(nA, 7), (nB, 8), (nC, 9), (['_', 'l', 'i', 'n', 'e', 'a', 'r'], 2)] := by decide +kernel
  rw [hx1, Option.map_some] at h10
  rw [Option.some.inj h10] at hx2
  have hx : x = 7 := by
    rcases List.mem_cons.1 hx2 with h | h
    · exact congrArg Prod.snd h
    · have : ∀ e ∈ [(nB, 8), (nC, 9), ((['_', 'l', 'i', 'n', 'e', 'a', 'r'] : PyStr), 2)], e.1 ≠ nA := by decide
      exact absurd rfl (this _ h)
  subst hx
  have h7 : (second.heap.paramVal 7 nWeight).map Tensor.shape = some [1, 2] := by decide +kernel
  rw [ht1, Option.map_some, ht2] at h7
  revert h7
  decide

/-- The first call goes by the configuration that it is given, not by the one in the configuration file (rank 7). -/
example : FollowsConfig start first args1 0 rank1 := C101_first_partial (by decide +kernel) start_good (by decide +kernel) ok_first

/-- The second call goes by the configuration given to the first. -/
example : FollowsConfig first second args2 0 rank1 := C101_later (root₁ := 0) (by decide +kernel) ok_first (by decide +kernel) rfl first_model first_good ok_second

/-- But for what `finalize` will write, the second call does what it does without a configuration. -/
example : first.addLora (lib 1) true args2 = (first.addLora (lib 1) true { nameFilter := some [nb] }).map fun t => { t with cfg := rank2 } :=
  C101_ignored (a := { nameFilter := some [nb] }) rank1 (by decide +kernel) rank2

/-- `config.yaml` will say rank 2. -/
example : second.cfg.rank = 2 ∧ second.handler = some rank1 := by decide +kernel

end ExLoraCfg
end Logix
