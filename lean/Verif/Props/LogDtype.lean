/-
C144: what is logged has the configured element type. Property theorems.
-/
import Verif.Lemmas.LogDtype
import Verif.Props.SampleAlone

namespace Logix
open Spec Sess
variable {K : Type}

theorem Sess.DInv.logHas {d : DType} {n : Nat} {s : Sess K} (h : DInv d n s) : LogHas d s :=
  fun _ _ _ r h1 h2 => h.log r ⟨_, Dict.mem_of_get? _ h1, _, Dict.mem_of_get? _ h2, rfl⟩

theorem Sess.DInv.copyHas {d : DType} {n : Nat} {s : Sess K} (h : DInv d n s) : CopyHas d s :=
  fun ids log hc _ _ _ _ h1 h2 => (getLogCopy_DInv h).2 ids log hc _ (Dict.mem_of_get? _ h1) _ (Dict.mem_of_get? _ h2)

theorem Sess.DInv.bufferHas [Zero K] {d : DType} {n : Nat} {s : Sess K} (E : SEnv K) (h : DInv d n s) : BufferHas E d s := by
  intro i mods m v t a h1 h2 h3
  have h1 := Dict.mem_of_get? _ h1
  have h2 := Dict.mem_of_get? _ h2
  have h3 := Dict.mem_of_get? _ h3
  unfold readBuffer at h1
  obtain ⟨e, he, e1⟩ := List.mem_map.1 h1
  obtain ⟨-, rfl⟩ := Prod.mk.inj e1
  obtain ⟨mm, hm, e2⟩ := List.mem_map.1 h2
  obtain ⟨-, e2⟩ := Prod.mk.inj e2
  rw [← Nested.node.inj e2] at h3
  obtain ⟨x, hx, e3⟩ := List.mem_map.1 h3
  obtain ⟨-, e3⟩ := Prod.mk.inj e3
  rw [← Nested.leaf.inj e3]
  have := h.buf e he mm hm x hx
  obtain ⟨k, y⟩ := x
  cases y with
  | copy d' u => exact this
  | view r idx =>
    obtain ⟨o, h1, h2⟩ := this
    show (readVal E s (.view r idx)).dtype = d
    simp only [readVal]
    split
    · next o' ho =>
      rw [show s.obj r = some o from h1] at ho
      rw [← Option.some.inj ho]
      exact h2
    · next ho =>
      rw [show s.obj r = some o from h1] at ho
      cases ho

/-- The names that `get_dtype` knows or happens to get right, without `bfloat16`. -/
theorem getDtype_names {name : String} {d : DType} (h : name ∈ ["float64", "float32", "float", "float16", "int8"]) (hd : (name, TorchDType.np d) ∈ torchNames) :
    getDtype (.str name.toList) = some (.np d) := by
  simp only [List.mem_cons, List.not_mem_nil, or_false] at h
  rcases h with rfl | rfl | rfl | rfl | rfl <;> simp [torchNames] at hd <;> subst hd <;> decide +kernel

theorem dtype_of_name {name : String} {d : DType} (hn : name ∈ ["float64", "float32", "float", "float16", "int8"]) (hd : (name, TorchDType.np d) ∈ torchNames)
    {E : SEnv K} (hE : getDtype (.str name.toList) = E.dtype.map .np) : E.dtype = some d := by
  rw [getDtype_names hn hd] at hE
  cases h : E.dtype with
  | none => rw [h] at hE; cases hE
  | some d' => rw [h] at hE; exact congrArg some (TorchDType.np.inj (Option.some.inj hE)).symm

/-- **C144, partial.** With one of the names `float64`, `float32`, `float`, `float16` and `int8`, whatever the program does (with tensors that
exist), the tensors of the batch log, those that `get_log(copy=True)` returns and the arrays in the save buffer have that type. -/
theorem C144_log_partial [Field K] : LogsIn K ["float64", "float32", "float", "float16", "int8"] := by
  intro name d hn hd E hE workers threshold fs ops ho
  obtain ⟨m, h⟩ := history_DInv (dtype_of_name hn hd hE) ops 0 (Sess.init workers threshold fs) ho
    ⟨rfl, fun r hr => (by obtain ⟨m, hm, -⟩ := hr; cases hm), fun e he => by cases he⟩
  exact ⟨h.logHas, h.copyHas, h.bufferHas E⟩

/-- **C144, partial, the log directory.** With one of these names, every array that a run which logs gradients (conditions of C111) leaves in its log
directory has that type. -/
theorem C144_stored_partial [Field K] (name : String) (d : DType) (hn : name ∈ ["float64", "float32", "float", "float16", "int8"])
    (hd : (name, TorchDType.np d) ∈ torchNames) (r : LoggingRun K) (hE : getDtype (.str name.toList) = r.env.dtype.map .np) (keys : List PyStr)
    (shape : PyStr → List Nat) (h : r.Completes keys shape) :
    ∃ ds, openDataset r.final.fs r.listing = .ok ds ∧ ds.len = (r.saved.flatMap (·.1)).length ∧
      ∀ i < ds.len, ∃ id v, ds.getItem i = .ok (id, v) ∧ ∀ nm ∈ keys, ∃ a, v.lookup [nm, LogType.name .grad] = some a ∧ a.dtype = d := by
  obtain ⟨ds, d1, d2, d3⟩ := C111_samples r.env r.dec r.dtype r.setup h.configures r.workers r.threshold r.files r.ctx r.ids r.mask h.context r.body keys r.mods h.logs
    shape r.dir h.dtype h.stats h.grad h.watches h.nodup h.paths h.dims h.some h.tidy h.storable h.ids h.files h.clean h.workers r.final h.runs r.listing h.listing
  have hr : r.dtype = d := by
    have e := dtype_of_name hn hd hE
    rcases h.dtype with h | ⟨h, -⟩
    · exact Option.some.inj (h.symm.trans e)
    · rw [e] at h; cases h
  refine ⟨ds, d1, d2, fun i hi => ?_⟩
  have key : ∀ (l : List (List PyStr × (Nat → List (Nat × Nat)))) (i : Nat), i < (l.flatMap (·.1)).length →
      ∃ a u b j, l = a ++ u :: b ∧ j < u.1.length ∧ i = (a.flatMap (·.1)).length + j := by
    intro l
    induction l with
    | nil => intro i hi; simp at hi
    | cons u l ih =>
      intro i hi
      by_cases hu : i < u.1.length
      · exact ⟨[], u, l, i, rfl, hu, by simp⟩
      · obtain ⟨a, w, b, j, e1, e2, e3⟩ := ih (i - u.1.length) (by rw [List.flatMap_cons, List.length_append] at hi; omega)
        exact ⟨u :: a, w, b, j, by rw [e1]; rfl, e2, by rw [List.flatMap_cons, List.length_append]; omega⟩
  rw [d2] at hi
  obtain ⟨a, u, b, j, e1, e2, e3⟩ := key _ i hi
  obtain ⟨v, g1, g2⟩ := d3 a u b e1 j e2
  refine ⟨_, v, by rw [e3]; exact g1, fun nm hm => ?_⟩
  obtain ⟨T, x, -, k2, k3, -⟩ := g2 nm hm
  exact ⟨x, k2, by rw [← hr]; exact k3⟩

end Logix
