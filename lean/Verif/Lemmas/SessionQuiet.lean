/-
Lemmas about sessions: what the steps leave alone.
-/
import Verif.Model.Session

namespace Logix
variable {K : Type}

/-- The step keeps a property of the state, whether or not it raises. -/
def SAct.Keeps (P : Sess K → Prop) (f : SAct K) : Prop := ∀ s, P s → P (f s).1

theorem SAct.Keeps.seq {P : Sess K → Prop} {f g : SAct K} (hf : f.Keeps P) (hg : g.Keeps P) : (f.seq g).Keeps P := by
  intro s h
  have := hf s h
  unfold SAct.seq
  split
  · next s' e h' => rw [h'] at this; exact this
  · next s' h' => rw [h'] at this; exact hg _ this

theorem SAct.Keeps.each {α : Type} {P : Sess K → Prop} {f : α → SAct K} {l : List α} (h : ∀ a ∈ l, (f a).Keeps P) :
    (SAct.each f l).Keeps P := by
  induction l with
  | nil => exact fun s h => h
  | cons a l ih =>
    exact SAct.Keeps.seq (h a (List.mem_cons_self ..)) (ih fun b hb => h b (List.mem_cons_of_mem _ hb))

theorem SAct.seq_none {f g : SAct K} {s t : Sess K} (h : f.seq g s = (t, none)) : ∃ u, f s = (u, none) ∧ g u = (t, none) := by
  unfold SAct.seq at h
  split at h
  · simp at h
  · next s' h' => exact ⟨s', h', h⟩

theorem SAct.seq_eq {f g : SAct K} {s u : Sess K} (h : f s = (u, none)) : f.seq g s = g u := by
  unfold SAct.seq
  rw [h]

namespace Sess

/-- Only tensors, the batch log and the statistics differ. -/
def Quiet (s s' : Sess K) : Prop := { s' with user := s.user, own := s.own, log := s.log, st := s.st } = s

theorem Quiet.refl (s : Sess K) : Quiet s s := rfl

theorem Quiet.trans {a b c : Sess K} (h : Quiet a b) (h' : Quiet b c) : Quiet a c := by
  unfold Quiet at h h' ⊢
  have : ({ c with user := a.user, own := a.own, log := a.log, st := a.st } : Sess K) =
      { ({ c with user := b.user, own := b.own, log := b.log, st := b.st } : Sess K) with
        user := a.user, own := a.own, log := a.log, st := a.st } := rfl
  rw [this, h', h]

end Sess

open Sess

/-- The step changes only tensors, the batch log and the statistics. -/
def SAct.IsQuiet (f : SAct K) : Prop := ∀ s, Quiet s (f s).1

theorem SAct.IsQuiet.seq {f g : SAct K} (hf : f.IsQuiet) (hg : g.IsQuiet) : (f.seq g).IsQuiet := by
  intro s
  have := hf s
  unfold SAct.seq
  split
  · next s' e h' => rw [h'] at this; exact this
  · next s' h' => rw [h'] at this; exact this.trans (hg _)

theorem SAct.IsQuiet.each {α : Type} {f : α → SAct K} {l : List α} (h : ∀ a ∈ l, (f a).IsQuiet) : (SAct.each f l).IsQuiet := by
  induction l with
  | nil => exact fun s => Quiet.refl s
  | cons a l ih => exact SAct.IsQuiet.seq (h a (List.mem_cons_self ..)) (ih fun b hb => h b (List.mem_cons_of_mem _ hb))

namespace Sess

theorem alloc_quiet (s : Sess K) (o : TObj K) : Quiet s (s.alloc o).1 := rfl

theorem setVal_quiet (s : Sess K) (r : TRef) (v : Tensor K) : Quiet s (s.setVal r v) := by cases r <;> rfl

theorem logUpdate_quiet [Semiring K] (name ty : PyStr) (r : TRef) : (logUpdate (K := K) name ty r).IsQuiet := by
  intro s
  unfold logUpdate
  dsimp only
  split
  · rfl
  · split
    · split
      · exact setVal_quiet _ _ _
      · rfl
    · rfl

theorem plugin_quiet [Semiring K] (E : SEnv K) (mod : Option ModKind) (name : PyStr) (ty : LogType) (r : TRef) (p : Plugin) :
    (plugin E mod name ty r p).IsQuiet := by
  intro s
  unfold plugin
  split
  · exact logUpdate_quiet _ _ _ s
  · split
    · rfl
    · dsimp only
      split <;> rfl

theorem convert_quiet (E : SEnv K) (s : Sess K) (r : TRef) : Quiet s (s.convert E r).1 := by
  unfold convert
  split
  · split <;> rfl
  · rfl

theorem masked_quiet [Semiring K] (s : Sess K) (r : TRef) : Quiet s (s.masked r).1 := by
  unfold masked
  split
  · rfl
  · split
    · rfl
    · dsimp only
      split <;> rfl

theorem forwardHook_quiet [Semiring K] (E : SEnv K) (mod x : Nat) (name : PyStr) : (forwardHook E mod x name).IsQuiet := by
  intro s
  have h1 := masked_quiet s (.user x)
  unfold forwardHook
  split
  · next s' e h => rw [h] at h1; exact h1
  · next s' r h =>
    rw [h] at h1
    exact (h1.trans (convert_quiet E s' r)).trans (SAct.IsQuiet.each (fun p _ => plugin_quiet _ _ _ _ _ _) _)

theorem backwardHook_quiet [Semiring K] (E : SEnv K) (mod g : Nat) (name : PyStr) : (backwardHook E mod g name).IsQuiet := by
  intro s
  exact (convert_quiet E s (.user g)).trans (SAct.IsQuiet.each (fun p _ => plugin_quiet _ _ _ _ _ _) _)

theorem gradBackwardHook_quiet [Semiring K] (E : SEnv K) (mod x g : Nat) (name : PyStr) :
    (gradBackwardHook E mod x g name).IsQuiet := by
  intro s
  unfold gradBackwardHook
  split
  · rfl
  · rfl
  · split
    · split
      · rfl
      · next v _ =>
        exact ((alloc_quiet s _).trans (convert_quiet E _ _)).trans (SAct.IsQuiet.each (fun p _ => plugin_quiet _ _ _ _ _ _) _)
    · rfl

theorem tensorBackwardHook_quiet [Semiring K] (E : SEnv K) (g : Nat) (name : PyStr) : (tensorBackwardHook E g name).IsQuiet := by
  intro s
  exact (convert_quiet E s (.user g)).trans (SAct.IsQuiet.each (fun p _ => plugin_quiet _ _ _ _ _ _) _)

theorem gradAt_quiet [Semiring K] (E : SEnv K) (y g : Nat) : (gradAt E y g).IsQuiet := by
  intro s
  refine SAct.IsQuiet.each (fun h _ => ?_) _
  split
  · exact gradBackwardHook_quiet _ _ _ _ _
  · exact tensorBackwardHook_quiet _ _ _

theorem backward_quiet [Semiring K] (E : SEnv K) (y g : Nat) : (backward E y g).IsQuiet := by
  intro s
  exact SAct.IsQuiet.each (fun c _ => SAct.IsQuiet.each fun n _ => backwardHook_quiet _ _ _ _) _

theorem gradStat_quiet [Semiring K] (E : SEnv K) (p : Plugin) (name : PyStr) : (gradStat E p name).IsQuiet := by
  intro s
  unfold gradStat
  split
  · rfl
  · exact plugin_quiet _ _ _ _ _ _ s

/-- The first part of `update`: the gradient statistics. -/
def gradStats [Semiring K] (E : SEnv K) (ps : List Plugin) : SAct K :=
  SAct.each (fun p s => SAct.each (gradStat E p) (Dict.keys s.log) s) ps

theorem gradStats_quiet [Semiring K] (E : SEnv K) (ps : List Plugin) : (gradStats E ps).IsQuiet :=
  SAct.IsQuiet.each fun p _ s => SAct.IsQuiet.each (fun n _ => gradStat_quiet E p n) s

theorem update_eq [Semiring K] (E : SEnv K) (save : Bool) (s : Sess K) :
    update E save s = SAct.seq (gradStats E s.opt.grad.tail) (if save then saveLog E else fun s => (s, none)) s := rfl

end Sess
end Logix
