/-
C25: logging does not change the user's tensors when no module is logged twice in a batch.
-/
import Verif.Spec.SessionOnce
import Verif.Props.SessionHeap

namespace Logix
open Spec
variable {K : Type}
namespace Sess

/-- Logged gradients are tensors of LogIX. -/
def GradOwn (s : Sess K) : Prop := ∀ n r, entry s n (LogType.name .grad) = some r → ∃ k, r = .own k

/-- From `s` to `s'` the user's tensors and the options are the same, and of the log, apart from gradients, only the entries in `F` are changed. -/
structure Moves (F : PyStr → PyStr → Prop) (s s' : Sess K) : Prop where
  user : s'.user = s.user
  opt : s'.opt = s.opt
  own : GradOwn s'
  rest : ∀ n ty, ty ≠ LogType.name .grad → ¬ F n ty → entry s' n ty = entry s n ty

theorem Moves.refl {F : PyStr → PyStr → Prop} {s : Sess K} (h : GradOwn s) : Moves F s s := ⟨rfl, rfl, h, fun _ _ _ _ => rfl⟩

theorem Moves.trans {F : PyStr → PyStr → Prop} {a b c : Sess K} (h : Moves F a b) (h' : Moves F b c) : Moves F a c :=
  ⟨h'.user.trans h.user, h'.opt.trans h.opt, h'.own, fun n ty ht hF => (h'.rest n ty ht hF).trans (h.rest n ty ht hF)⟩

theorem Moves.mono {F G : PyStr → PyStr → Prop} {a b : Sess K} (h : Moves F a b) (hFG : ∀ n ty, F n ty → G n ty) : Moves G a b :=
  ⟨h.user, h.opt, h.own, fun n ty ht hG => h.rest n ty ht fun hF => hG (hFG n ty hF)⟩

theorem Moves.of_eq {F : PyStr → PyStr → Prop} {s s' : Sess K} (h : GradOwn s) (hu : s'.user = s.user) (ho : s'.opt = s.opt) (hl : s'.log = s.log) : Moves F s s' := by
  have e : ∀ n ty, entry s' n ty = entry s n ty := fun n ty => by unfold entry; rw [hl]
  exact ⟨hu, ho, fun n r hr => h n r (by rw [← e]; exact hr), fun n ty _ _ => e n ty⟩

theorem seq_moves {F : PyStr → PyStr → Prop} {f g : SAct K} {s : Sess K} (hf : Moves F s (f s).1) (hg : Moves F (f s).1 (g (f s).1).1) : Moves F s ((f.seq g) s).1 := by
  unfold SAct.seq
  split
  · next s' e h => rw [h] at hf; exact hf
  · next s' h => rw [h] at hf hg; exact hf.trans hg

theorem entry_set (s : Sess K) (name ty : PyStr) (r : TRef) (n t : PyStr) :
    entry { s with log := Dict.set s.log name (Dict.set ((Dict.get? s.log name).getD []) ty r) } n t = if n = name ∧ t = ty then some r else entry s n t := by
  unfold entry
  dsimp only
  by_cases hn : n = name
  · subst hn
    rw [Dict.get?_set_self, Option.getD_some]
    by_cases ht : t = ty
    · subst ht
      rw [Dict.get?_set_self, if_pos ⟨rfl, rfl⟩]
    · rw [Dict.get?_set_ne _ _ fun h => ht h.symm, if_neg fun h => ht h.2]
  · rw [Dict.get?_set_ne _ _ fun h => hn h.symm, if_neg fun h => hn h.1]

/-- A tensor for which the log has no entry is put there. -/
theorem logUpdate_first [Semiring K] {name ty : PyStr} {r : TRef} {s : Sess K} (hs : GradOwn s) (hty : ty ≠ LogType.name .grad) (h : entry s name ty = none) :
    Moves (fun n t => n = name ∧ t = ty) s (logUpdate name ty r s).1 := by
  unfold entry at h
  unfold logUpdate
  dsimp only
  rw [h]
  dsimp only
  refine ⟨rfl, rfl, fun n r' hr => ?_, fun n t _ hF => ?_⟩
  · rw [entry_set, if_neg fun h => hty h.2.symm] at hr
    exact hs n r' hr
  · rw [entry_set, if_neg hF]

/-- A gradient is put into the log or added to the one there, which is a tensor of LogIX. -/
theorem logUpdate_grad [Semiring K] {F : PyStr → PyStr → Prop} {name : PyStr} {k : Nat} {s : Sess K} (hs : GradOwn s) :
    Moves F s (logUpdate name (LogType.name .grad) (.own k) s).1 := by
  unfold logUpdate
  dsimp only
  split
  · refine ⟨rfl, rfl, fun n r' hr => ?_, fun n t ht _ => ?_⟩
    · rw [entry_set] at hr
      split at hr
      · exact ⟨k, (Option.some.inj hr).symm⟩
      · exact hs n r' hr
    · rw [entry_set, if_neg fun h => ht h.2]
  · next r₀ hr₀ =>
    obtain ⟨k₀, rfl⟩ := hs name r₀ hr₀
    split
    · split
      · exact Moves.of_eq hs rfl rfl rfl
      · exact Moves.refl hs
    · exact Moves.refl hs

theorem plugin_other [Semiring K] {F : PyStr → PyStr → Prop} (E : SEnv K) (mod : Option ModKind) (name : PyStr) (ty : LogType) (r : TRef) {p : Plugin} (hp : p ≠ .log)
    {s : Sess K} (hs : GradOwn s) : Moves F s (plugin E mod name ty r p s).1 := by
  unfold plugin
  split
  · exact absurd rfl hp
  · split
    · exact Moves.refl hs
    · dsimp only
      split <;> exact Moves.of_eq hs rfl rfl rfl

theorem plugins_other [Semiring K] {F : PyStr → PyStr → Prop} (E : SEnv K) (mod : Option ModKind) (name : PyStr) (ty : LogType) (r : TRef) : ∀ {ps : List Plugin}, .log ∉ ps →
    ∀ {s : Sess K}, GradOwn s → Moves F s (SAct.each (plugin E mod name ty r) ps s).1
  | [], _, _, hs => Moves.refl hs
  | p :: ps, hp, s, hs => 
    have h1 := plugin_other E mod name ty r (fun h => hp (by simp [h])) hs
    seq_moves h1 (plugins_other E mod name ty r (fun h => hp (by simp [h])) h1.own)

theorem name_ne_grad {ty : LogType} (h : ty ≠ .grad) : ty.name ≠ LogType.name .grad := by
  cases ty
  · decide
  · decide
  · exact absurd rfl h

/-- The plugins of a hook, each at most once. -/
theorem plugins_first [Semiring K] (E : SEnv K) (mod : Option ModKind) (name : PyStr) {ty : LogType} (hty : ty ≠ .grad) (r : TRef) : ∀ {ps : List Plugin}, ps.Nodup →
    ∀ {s : Sess K}, GradOwn s → (.log ∈ ps → entry s name ty.name = none) → Moves (fun n t => n = name ∧ t = ty.name) s (SAct.each (plugin E mod name ty r) ps s).1
  | [], _, _, hs, _ => Moves.refl hs
  | p :: ps, hp, s, hs, h => by
    by_cases e : p = .log
    · subst e
      have h1 : Moves (fun n t => n = name ∧ t = ty.name) s (plugin E mod name ty r .log s).1 := logUpdate_first hs (name_ne_grad hty) (h (by simp))
      exact seq_moves h1 (plugins_other E mod name ty r (List.nodup_cons.1 hp).1 h1.own)
    · have h1 := plugin_other (F := fun _ _ => False) E mod name ty r e hs
      refine seq_moves (h1.mono nofun) (plugins_first E mod name hty r (List.nodup_cons.1 hp).2 h1.own fun hl => ?_)
      rw [h1.rest _ _ (name_ne_grad hty) id]
      exact h (by simp [hl])

theorem plugin_grad [Semiring K] {F : PyStr → PyStr → Prop} (E : SEnv K) (mod : Option ModKind) (name : PyStr) (k : Nat) (p : Plugin) {s : Sess K} (hs : GradOwn s) :
    Moves F s (plugin E mod name .grad (.own k) p s).1 := by
  by_cases e : p = .log
  · subst e; exact logUpdate_grad hs
  · exact plugin_other E mod name .grad _ e hs

theorem plugins_grad [Semiring K] {F : PyStr → PyStr → Prop} (E : SEnv K) (mod : Option ModKind) (name : PyStr) (k : Nat) : ∀ (ps : List Plugin) {s : Sess K}, GradOwn s →
    Moves F s (SAct.each (plugin E mod name .grad (.own k)) ps s).1
  | [], _, hs => Moves.refl hs
  | p :: ps, s, hs =>
    have h1 := plugin_grad E mod name k p hs
    seq_moves h1 (plugins_grad E mod name k ps h1.own)

theorem convert_moves {F : PyStr → PyStr → Prop} (E : SEnv K) {s : Sess K} (hs : GradOwn s) (r : TRef) :
    Moves F s (s.convert E r).1 ∧ (∀ k, r = .own k → ∃ k, (s.convert E r).2 = .own k) := by
  unfold convert
  split
  · split
    · exact ⟨Moves.refl hs, fun k hk => ⟨k, hk⟩⟩
    · exact ⟨Moves.of_eq hs rfl rfl rfl, fun _ _ => ⟨_, rfl⟩⟩
  · exact ⟨Moves.refl hs, fun k hk => ⟨k, hk⟩⟩

theorem masked_moves [Semiring K] {F : PyStr → PyStr → Prop} {s : Sess K} (hs : GradOwn s) (r : TRef) : Moves F s (s.masked r).1 := by
  unfold masked
  split
  · exact Moves.refl hs
  · split
    · exact Moves.refl hs
    · dsimp only
      split
      · exact Moves.of_eq hs rfl rfl rfl
      · exact Moves.refl hs

theorem forwardHook_moves [Semiring K] (E : SEnv K) (mod x : Nat) (name : PyStr) {s : Sess K} (hs : GradOwn s) (hn : s.opt.forward.Nodup)
    (h : .log ∈ s.opt.forward → entry s name (LogType.name .forward) = none) :
    Moves (fun n t => n = name ∧ t = LogType.name .forward) s (forwardHook E mod x name s).1 := by
  have h1 := masked_moves (F := fun _ _ => False) hs (.user x)
  unfold forwardHook
  split
  · next s' e he => rw [he] at h1; exact h1.mono nofun
  · next s' r he =>
    rw [he] at h1
    have h2 := (convert_moves (F := fun _ _ => False) E h1.own r).1
    have h3 := h1.trans h2
    refine (h3.mono nofun).trans ?_
    dsimp only
    have hn' : ((s', (Except.ok r : Py TRef)).1.convert E r).1.opt.forward.Nodup := by rw [h3.opt]; exact hn
    refine plugins_first E _ name (ty := .forward) (by decide) _ hn' h2.own fun hl => ?_
    rw [h3.opt] at hl
    rw [h3.rest _ _ (by decide) id]
    exact h hl

theorem backwardHook_moves [Semiring K] (E : SEnv K) (mod g : Nat) (name : PyStr) {s : Sess K} (hs : GradOwn s) (hn : s.opt.backward.Nodup)
    (h : .log ∈ s.opt.backward → entry s name (LogType.name .backward) = none) :
    Moves (fun n t => n = name ∧ t = LogType.name .backward) s (backwardHook E mod g name s).1 := by
  have h3 := (convert_moves (F := fun _ _ => False) E hs (.user g)).1
  refine (h3.mono nofun).trans ?_
  have hn' : (s.convert E (.user g)).1.opt.backward.Nodup := by rw [h3.opt]; exact hn
  refine plugins_first E _ name (ty := .backward) (by decide) _ hn' h3.own fun hl => ?_
  rw [h3.opt] at hl
  rw [h3.rest _ _ (by decide) id]
  exact h hl

theorem tensorBackwardHook_moves [Semiring K] (E : SEnv K) (g : Nat) (name : PyStr) {s : Sess K} (hs : GradOwn s) (hn : s.opt.backward.Nodup)
    (h : .log ∈ s.opt.backward → entry s name (LogType.name .backward) = none) :
    Moves (fun n t => n = name ∧ t = LogType.name .backward) s (tensorBackwardHook E g name s).1 := by
  have h3 := (convert_moves (F := fun _ _ => False) E hs (.user g)).1
  refine (h3.mono nofun).trans ?_
  have hn' : (s.convert E (.user g)).1.opt.backward.Nodup := by rw [h3.opt]; exact hn
  refine plugins_first E _ name (ty := .backward) (by decide) _ hn' h3.own fun hl => ?_
  rw [h3.opt] at hl
  rw [h3.rest _ _ (by decide) id]
  exact h hl

theorem gradBackwardHook_moves [Semiring K] {F : PyStr → PyStr → Prop} (E : SEnv K) (mod x g : Nat) (name : PyStr) {s : Sess K} (hs : GradOwn s) :
    Moves F s (gradBackwardHook E mod x g name s).1 := by
  unfold gradBackwardHook
  split
  · exact Moves.refl hs
  · exact Moves.refl hs
  · split
    · split
      · exact Moves.refl hs
      · next a b _ _ _ v _ =>
        have h1 : Moves F s (s.alloc ⟨v, b.dtype, false, true⟩).1 := Moves.of_eq hs rfl rfl rfl
        obtain ⟨h2, h3⟩ := convert_moves (F := F) E h1.own (s.alloc ⟨v, b.dtype, false, true⟩).2
        obtain ⟨k, hk⟩ := h3 _ rfl
        refine (h1.trans h2).trans ?_
        dsimp only
        rw [hk]
        exact plugins_grad E _ name k _ h2.own
    · exact Moves.refl hs

theorem registerTensorHook_moves {F : PyStr → PyStr → Prop} (y : Nat) (fn : HookFn) {s : Sess K} (hs : GradOwn s) : Moves F s (registerTensorHook y fn s).1 := by
  unfold registerTensorHook
  split
  · split
    · exact Moves.of_eq hs rfl rfl rfl
    · exact Moves.refl hs
  · exact Moves.refl hs

theorem each_moves {α : Type} {F : PyStr → PyStr → Prop} {f : α → SAct K} : ∀ {l : List α}, (∀ a ∈ l, ∀ s, GradOwn s → Moves F s (f a s).1) → ∀ {s : Sess K}, GradOwn s →
    Moves F s (SAct.each f l s).1
  | [], _, _, hs => Moves.refl hs
  | a :: l, h, s, hs =>
    have h1 := h a (by simp) s hs
    seq_moves h1 (each_moves (fun b hb => h b (by simp [hb])) h1.own)

/-- A loop whose steps log tensors under different names. -/
theorem each_first {α : Type} {f : α → SAct K} (nm : α → List PyStr) {ty : LogType} (hty : ty ≠ .grad) (C : LogOption → Prop) (D : LogOption → Prop)
    (hf : ∀ a s, GradOwn s → D s.opt → (C s.opt → (nm a).Nodup ∧ ∀ n ∈ nm a, entry s n ty.name = none) → Moves (fun n t => n ∈ nm a ∧ t = ty.name) s (f a s).1) :
    ∀ (l : List α) {s : Sess K}, GradOwn s → D s.opt → (C s.opt → (l.flatMap nm).Nodup ∧ ∀ n ∈ l.flatMap nm, entry s n ty.name = none) →
      Moves (fun n t => n ∈ l.flatMap nm ∧ t = ty.name) s (SAct.each f l s).1
  | [], _, hs, _, _ => Moves.refl hs
  | a :: l, s, hs, hd, h => by
    have h1 := hf a s hs hd fun hc => by
      obtain ⟨h1, h2⟩ := h hc
      rw [List.flatMap_cons] at h1 h2
      exact ⟨(List.nodup_append.1 h1).1, fun n hn => h2 n (by simp [hn])⟩
    have h2 := each_first nm hty C D hf l h1.own (by rw [h1.opt]; exact hd) fun hc => by
      rw [h1.opt] at hc
      obtain ⟨g1, g2⟩ := h hc
      rw [List.flatMap_cons] at g1 g2
      obtain ⟨g3, g4, g5⟩ := List.nodup_append.1 g1
      refine ⟨g4, fun n hn => ?_⟩
      rw [h1.rest n _ (name_ne_grad hty) fun hm => g5 n hm.1 n hn rfl]
      exact g2 n (List.mem_append_right _ hn)
    exact seq_moves (h1.mono fun n t hn => ⟨by simp [hn.1], hn.2⟩) (h2.mono fun n t hn => ⟨by rw [List.flatMap_cons]; exact List.mem_append_right _ hn.1, hn.2⟩)

theorem flatMap_single {α β : Type} (f : α → β) (l : List α) : l.flatMap (fun a => [f a]) = l.map f := by
  induction l with
  | nil => rfl
  | cons a l ih => simp [ih]

/-- The plugins of forward and backward are there at most once. -/
def OptNodup (o : LogOption) : Prop := o.forward.Nodup ∧ o.backward.Nodup

/-- The user's tensors and the options are the same. -/
structure Same (s s' : Sess K) : Prop where
  user : s'.user = s.user
  opt : s'.opt = s.opt
  own : GradOwn s'

theorem Moves.same {F : PyStr → PyStr → Prop} {s s' : Sess K} (h : Moves F s s') : Same s s' := ⟨h.user, h.opt, h.own⟩
theorem Same.trans {a b c : Sess K} (h : Same a b) (h' : Same b c) : Same a c := ⟨h'.user.trans h.user, h'.opt.trans h.opt, h'.own⟩
theorem Same.of_eq {s s' : Sess K} (h : GradOwn s) (hu : s'.user = s.user) (ho : s'.opt = s.opt) (hl : s'.log = s.log) : Same s s' :=
  (Moves.of_eq (F := fun _ _ => True) h hu ho hl).same

theorem setBatch_same (s : Sess K) (ids : List PyStr) (mask : Option (Tensor K)) : Same s (s.setBatch ids mask) := ⟨rfl, rfl, fun n r hr => by cases hr⟩

theorem update_same [Semiring K] (E : SEnv K) (save : Bool) {s : Sess K} (hs : GradOwn s) : Same s (update E save s).1 := by
  have h1 : Moves (fun _ _ => True) s (SAct.each (fun p s => SAct.each (gradStat E p) (Dict.keys s.log) s) s.opt.grad.tail s).1 := by
    refine each_moves (fun p _ s hs => each_moves (fun n _ s hs => ?_) hs) hs
    unfold gradStat
    split
    · exact Moves.refl hs
    · next r hr =>
      rw [Option.bind_eq_some_iff] at hr
      obtain ⟨tys, h1, h2⟩ := hr
      obtain ⟨k, rfl⟩ := hs n r (by unfold entry; rw [h1]; exact h2)
      exact plugin_grad E none n k p hs
  refine (seq_moves h1 ?_).same
  cases save
  · exact Moves.refl h1.own
  · have h' := congrArg Sess.heapPart (saveLog_saveOnly E (SAct.each (fun p s => SAct.each (gradStat E p) (Dict.keys s.log) s) s.opt.grad.tail s).1)
    simp only [heapPart, Prod.mk.injEq] at h'
    exact Moves.of_eq h1.own h'.1 h'.2.2.2.2 h'.2.2.1

theorem registerAll_same {s : Sess K} (hs : GradOwn s) : Same s (registerAllModuleHooks s).1 := by
  refine (each_moves (F := fun _ _ => True) (fun m _ s hs => ?_) hs).same
  unfold registerModule
  split
  · exact Moves.refl hs
  · exact Moves.of_eq hs rfl rfl rfl

theorem stateOp_same [Field K] (E : SEnv K) (o : StateOp K) {s : Sess K} (hs : GradOwn s) : Moves (fun _ _ => True) s (stateOp E o s).1 := by
  unfold stateOp
  split <;> exact Moves.of_eq hs rfl rfl rfl

theorem toPlugins_nodup {l : List PluginReq} {ps : List Plugin} (h : (toPlugins l false).2 = .ok ps) : ps.Nodup := by
  unfold toPlugins at h
  split at h
  · cases h
  · obtain rfl := Except.ok.inj h
    exact List.Nodup.filter _ (by decide)

theorem setup_nodup (o : LogOption) (kw : OptionKwargs) : OptNodup (o.setup kw).1 := by
  unfold LogOption.setup
  dsimp only
  split
  · exact ⟨List.nodup_nil, List.nodup_nil⟩
  · next f hf =>
    split
    · exact ⟨toPlugins_nodup hf, List.nodup_nil⟩
    · next b hb =>
      split
      · exact ⟨toPlugins_nodup hf, toPlugins_nodup hb⟩
      · exact ⟨toPlugins_nodup hf, toPlugins_nodup hb⟩

theorem copyTensor_leaves (s₀ s : Sess K) (r : TRef) : (copyTensor s₀ s r).1.user = s.user ∧ (copyTensor s₀ s r).1.log = s.log := by
  unfold copyTensor
  split
  · split <;> exact ⟨rfl, rfl⟩
  · exact ⟨rfl, rfl⟩

theorem copyTypes_leaves (s₀ : Sess K) : ∀ (l : List (PyStr × TRef)) (s : Sess K), (copyTypes s₀ l s).1.user = s.user ∧ (copyTypes s₀ l s).1.log = s.log
  | [], _ => ⟨rfl, rfl⟩
  | (k, r) :: l, s => by
    have h1 := copyTensor_leaves s₀ s r
    unfold copyTypes
    split
    · next s' e h' => rw [h'] at h1; exact h1
    · next s' r' h' =>
      rw [h'] at h1
      have h2 := copyTypes_leaves s₀ l s'
      split
      · next s2 e h3 => rw [h3] at h2; exact ⟨h2.1.trans h1.1, h2.2.trans h1.2⟩
      · next s2 d h3 => rw [h3] at h2; exact ⟨h2.1.trans h1.1, h2.2.trans h1.2⟩

theorem copyLog_leaves (s₀ : Sess K) : ∀ (l : List (PyStr × Dict PyStr TRef)) (s : Sess K), (copyLog s₀ l s).1.user = s.user ∧ (copyLog s₀ l s).1.log = s.log
  | [], _ => ⟨rfl, rfl⟩
  | (k, r) :: l, s => by
    have h1 := copyTypes_leaves s₀ r s
    unfold copyLog
    split
    · next s' e h' => rw [h'] at h1; exact h1
    · next s' r' h' =>
      rw [h'] at h1
      have h2 := copyLog_leaves s₀ l s'
      split
      · next s2 e h3 => rw [h3] at h2; exact ⟨h2.1.trans h1.1, h2.2.trans h1.2⟩
      · next s2 d h3 => rw [h3] at h2; exact ⟨h2.1.trans h1.1, h2.2.trans h1.2⟩

theorem getLogCopy_leaves (s : Sess K) : s.getLogCopy.1.user = s.user ∧ s.getLogCopy.1.log = s.log := by
  have h1 := copyLog_leaves s s.log s
  unfold getLogCopy
  split
  · next s' e h' => rw [h'] at h1; exact h1
  · next s' d h' => rw [h'] at h1; exact h1

/-- An operation that logs nothing for the second time leaves the user's tensors as they are. -/
theorem run_first [Field K] (E : SEnv K) (o : SOp K) {s : Sess K} (hs : GradOwn s) (hn : OptNodup s.opt) (h : FirstTime s o) :
    GradOwn (o.run E s).1 ∧ OptNodup (o.run E s).1.opt ∧ (o.run E s).1.user = s.user ++ allocs [o] := by
  have fin : ∀ {s' : Sess K}, allocs [o] = [] → Same s s' → GradOwn s' ∧ OptNodup s'.opt ∧ s'.user = s.user ++ allocs [o] :=
    fun ha hm => ⟨hm.own, by rw [hm.opt]; exact hn, by rw [hm.user, ha, List.append_nil]⟩
  cases o with
  | alloc t => exact ⟨hs, hn, rfl⟩
  | forward mod x y =>
    refine fin rfl ?_
    show Same s (forward E mod x y s).1
    unfold forward
    split
    · exact Same.of_eq hs rfl rfl rfl
    · dsimp only
      have h1 := each_first (f := fun h => forwardHook E mod x h.name) (fun h : ModHook => [h.name]) (ty := .forward) (by decide) (fun o => Plugin.log ∈ o.forward)
        (fun o => o.forward.Nodup) (fun a s hs hd hc => (forwardHook_moves E mod x a.name hs hd fun hl => (hc hl).2 _ (by simp)).mono fun n t hnt => ⟨by simp [hnt.1], hnt.2⟩)
        (s.pre.filter fun h => h.mod = mod) hs hn.1 (by rw [flatMap_single]; exact h)
      refine (seq_moves (h1.mono (G := fun _ _ => True) fun _ _ _ => trivial) ?_).same
      refine seq_moves (Moves.of_eq h1.own rfl rfl rfl) (each_moves (fun a _ s hs => ?_) (Moves.of_eq (F := fun _ _ => True) h1.own rfl rfl rfl).own)
      exact registerTensorHook_moves _ _ hs
  | gradAt y g =>
    refine fin rfl (each_first (ty := .backward) (fun h : TensorHook => match h.fn with | .activation n => [n] | .grad .. => []) (by decide)
      (fun o => Plugin.log ∈ o.backward) (fun o => o.backward.Nodup) (fun a s hs hd hc => ?_) (s.tens.filter fun h => h.out = y) hs hn.2 h).same
    cases a with
    | mk id out fn =>
      cases fn with
      | grad mod x name => exact gradBackwardHook_moves E mod x g name hs
      | activation name => exact (tensorBackwardHook_moves E g name hs hd fun hl => (hc hl).2 _ (by simp)).mono fun n t hnt => ⟨by simp [hnt.1], hnt.2⟩
  | backward y g =>
    refine fin rfl (each_first (ty := .backward) PastCall.names (by decide) (fun o => Plugin.log ∈ o.backward) (fun o => o.backward.Nodup) (fun c s hs hd hc => ?_)
      (s.calls.filter fun c => c.out = y) hs hn.2 h).same
    have := each_first (f := fun name => backwardHook E c.mod g name) (fun n : PyStr => [n]) (ty := .backward) (by decide) (fun o => Plugin.log ∈ o.backward)
      (fun o => o.backward.Nodup) (fun a s hs hd hc => (backwardHook_moves E c.mod g a hs hd fun hl => (hc hl).2 _ (by simp)).mono fun n t hnt => ⟨by simp [hnt.1], hnt.2⟩)
      c.names hs hd (by rw [flatMap_single, List.map_id']; exact hc)
    exact this.mono fun n t hnt => ⟨by have := hnt.1; rwa [flatMap_single, List.map_id'] at this, hnt.2⟩
  | watchActivation d =>
    refine fin rfl (each_first (ty := .forward) (fun d : PyStr × Nat => [d.1]) (by decide) (fun o => Plugin.log ∈ o.forward) (fun o => o.forward.Nodup) (fun a s hs hd hc => ?_)
      d hs hn.1 (by rw [flatMap_single]; exact h)).same
    have h3 := (convert_moves (F := fun _ _ => False) E hs (.user a.2)).1
    have hn' : (s.convert E (.user a.2)).1.opt.forward.Nodup := by rw [h3.opt]; exact hd
    have h4 := plugins_first E none a.1 (ty := .forward) (by decide) (s.convert E (.user a.2)).2 hn' h3.own fun hl => by
      rw [h3.opt] at hl
      rw [h3.rest _ _ (by decide) id]
      exact (hc hl).2 _ (by simp)
    have h5 := ((h3.mono nofun).trans h4).mono (G := fun n t => n ∈ [a.1] ∧ t = LogType.name .forward) fun n t hnt => ⟨by simp [hnt.1], hnt.2⟩
    exact seq_moves h5 (registerTensorHook_moves _ _ h5.own)
  | call ids mask sv => exact fin rfl ((setBatch_same s ids mask).trans (Same.of_eq (setBatch_same s ids mask).own rfl rfl rfl))
  | enter =>
    have h1 : Same s s.clearHooks := Same.of_eq hs rfl rfl rfl
    exact fin rfl (h1.trans (registerAll_same h1.own))
  | exit => exact fin rfl (update_same E _ hs)
  | start ids mask =>
    have h1 := setBatch_same s ids mask
    have h2 : Same s (s.setBatch ids mask).clearHooks := h1.trans (Same.of_eq h1.own rfl rfl rfl)
    exact fin rfl (h2.trans (registerAll_same h2.own))
  | «end» sv => exact fin rfl (update_same E _ hs)
  | log ids mask => exact fin rfl ((setBatch_same s ids mask).trans (update_same E _ (setBatch_same s ids mask).own))
  | save b => exact fin rfl (Same.of_eq hs rfl rfl rfl)
  | eval => exact fin rfl (Same.of_eq hs rfl rfl rfl)
  | setup kw =>
    refine ⟨hs, setup_nodup _ kw, (List.append_nil _).symm⟩
  | watch sel =>
    refine fin rfl ?_
    show Same s (Sess.watch sel s).1
    unfold Sess.watch
    dsimp only
    split <;> exact Same.of_eq hs rfl rfl rfl
  | analysis o => exact fin rfl (stateOp_same E o hs).same
  | getLogCopy =>
    refine fin rfl ?_
    obtain ⟨h1, h2⟩ := getLogCopy_leaves s
    exact Same.of_eq hs h1 (opt_of_quiet (getLogCopy_quiet s)) h2
  | finalize dir => exact fin rfl (seq_moves (stateOp_same E _ hs) (Moves.of_eq (stateOp_same E _ hs).own rfl rfl rfl)).same
  | clear => exact fin rfl (seq_moves (stateOp_same E _ hs) (Moves.of_eq (stateOp_same E _ hs).own rfl rfl rfl)).same

end Sess
open Sess

/-- **C25, partial.** In every history in which no module or watched activation is logged (with `log` for forward or backward) a second time in a batch, every tensor of
the user's program stays as it was made. In particular if `log` is not configured for forward or backward. -/
theorem C25_once_partial [Field K] (E : SEnv K) (ops : List (SOp K)) (n : Nat) (t : Int) (fs : FS)
    (ho : ∀ pre o, pre ++ [o] <+: ops → FirstTime (runHistory E pre (Sess.init n t fs)) o) : (runHistory E ops (Sess.init n t fs)).user = allocs ops := by
  have main : ∀ (ops : List (SOp K)) (s : Sess K), GradOwn s → OptNodup s.opt → (∀ pre o, pre ++ [o] <+: ops → FirstTime (runHistory E pre s) o) →
      (runHistory E ops s).user = s.user ++ allocs ops := by
    intro ops
    induction ops with
    | nil => exact fun s _ _ _ => (List.append_nil _).symm
    | cons o ops ih =>
      intro s hs hn ho
      obtain ⟨h1, h2, h3⟩ := run_first E o hs hn (ho [] o (by simp))
      show (runHistory E ops (o.run E s).1).user = _
      rw [ih _ h1 h2 fun pre o' hp => ho (o :: pre) o' (by simpa using hp), h3, List.append_assoc]
      simp [allocs]
  exact main ops (Sess.init n t fs) (fun n r hr => by cases hr) ⟨List.nodup_nil, List.nodup_nil⟩ ho

end Logix
