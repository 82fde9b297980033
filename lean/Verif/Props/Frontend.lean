/-
C16: datasets and loaders over the history of a run.
-/
import Verif.Model.Frontend
import Verif.Props.SaverFaults

namespace Logix
open Spec

/-- The operation asks for a dataset or a loader. -/
def FrontOp.Builds : FrontOp → Prop
  | .saver _ => False
  | _ => True

/-- The state of the directory after the saves and finalizes of a history. -/
def Spec.directory (order : List Path) (ops : List FrontOp) (f : Front) : FS × Saver :=
  (ops.filterMap fun o => match o with | .saver op => some op | _ => none).foldl
    (fun (x : FS × Saver) op => ((op.run order x.1 x.2).1, (op.run order x.1 x.2).2.1)) (f.fs, f.saver)

theorem buildDataset_fs (listing : List PyStr) (flatten : Bool) (f : Front) : (f.buildDataset listing flatten).1.fs = f.fs ∧
    (f.buildDataset listing flatten).1.saver = f.saver ∧ (f.buildDataset listing flatten).1.loader = f.loader := by
  unfold Front.buildDataset
  split
  · exact ⟨rfl, rfl, rfl⟩
  · split <;> exact ⟨rfl, rfl, rfl⟩

theorem buildLoader_fs (listing : List PyStr) (b : Nat) (flatten : Bool) (f : Front) : (f.buildLoader listing b flatten).1.fs = f.fs ∧
    (f.buildLoader listing b flatten).1.saver = f.saver := by
  unfold Front.buildLoader
  have h := buildDataset_fs listing flatten f
  split
  · exact ⟨rfl, rfl⟩
  · split
    · next f' e he => rw [he] at h; exact ⟨h.1, h.2.1⟩
    · next f' d he => rw [he] at h; split <;> exact ⟨h.1, h.2.1⟩

theorem run_fs (order : List Path) (ops : List FrontOp) : ∀ f : Front, ((runFront order ops f).fs, (runFront order ops f).saver) = Spec.directory order ops f := by
  induction ops with
  | nil => intro f; rfl
  | cons o ops ih =>
    intro f
    have := ih (o.run order f)
    unfold runFront at this ⊢
    rw [List.foldl_cons, this]
    unfold Spec.directory
    cases o with
    | saver op => rfl
    | dataset l b => simp only [FrontOp.run, List.filterMap_cons]; rw [(buildDataset_fs l b f).1, (buildDataset_fs l b f).2.1]
    | loader l n b => simp only [FrontOp.run, List.filterMap_cons]; rw [(buildLoader_fs l n b f).1, (buildLoader_fs l n b f).2]

theorem buildDataset_keeps {listing : List PyStr} {flatten : Bool} {f : Front} {d : LogData} (h : f.dataset = some d) :
    f.buildDataset listing flatten = (f, .ok d) := by
  unfold Front.buildDataset; rw [h]

theorem dataset_keeps {order : List Path} {d : LogData} (ops : List FrontOp) : ∀ {f : Front}, f.dataset = some d → (runFront order ops f).dataset = some d := by
  induction ops with
  | nil => intro f h; exact h
  | cons o ops ih =>
    intro f h
    refine ih (f := o.run order f) ?_
    cases o with
    | saver op => exact h
    | dataset l b => simp only [FrontOp.run]; rw [buildDataset_keeps h]; exact h
    | loader l n b =>
      simp only [FrontOp.run, Front.buildLoader]
      split
      · exact h
      · rw [buildDataset_keeps h]
        dsimp only
        split <;> exact h

theorem loader_keeps {order : List Path} {l : LogLoader} (ops : List FrontOp) : ∀ {f : Front}, f.loader = some l → (runFront order ops f).loader = some l := by
  induction ops with
  | nil => intro f h; exact h
  | cons o ops ih =>
    intro f h
    refine ih (f := o.run order f) ?_
    cases o with
    | saver op => exact h
    | dataset l' b => simp only [FrontOp.run]; rw [(buildDataset_fs l' b f).2.2]; exact h
    | loader l' n b => simp only [FrontOp.run, Front.buildLoader, h]

theorem nothing_built {order : List Path} (ops : List FrontOp) : ∀ {f : Front}, (∀ o ∈ ops, ¬ o.Builds) → f.dataset = none → f.loader = none →
    (runFront order ops f).dataset = none ∧ (runFront order ops f).loader = none := by
  induction ops with
  | nil => intro f _ h h'; exact ⟨h, h'⟩
  | cons o ops ih =>
    intro f hb h h'
    have h1 : ¬ o.Builds := hb o (by simp)
    refine ih (f := o.run order f) (fun o' ho' => hb o' (by simp [ho'])) ?_ ?_
    · cases o with
      | saver op => exact h
      | dataset l b => exact absurd trivial h1
      | loader l n b => exact absurd trivial h1
    · cases o with
      | saver op => exact h'
      | dataset l b => exact absurd trivial h1
      | loader l n b => exact absurd trivial h1

/-- C16 for the first request of a run, after any saves and finalizes: the dataset is that of the current directory with the requested flag, and
so is the loader's. -/
theorem C16_first_partial (order : List Path) (ops : List FrontOp) (hops : ∀ o ∈ ops, ¬ o.Builds) (fs : FS) (rank nw : Nat) (thr : Int)
    (listing : List PyStr) (flatten : Bool) (b : Nat) (hb : 0 < b) :
    let f := runFront order ops (Front.init fs rank nw thr)
    let dir := (Spec.directory order ops (Front.init fs rank nw thr)).1
    (f.buildDataset listing flatten).2 = (openDataset dir listing).map (fun ds => ⟨ds, flatten⟩) ∧
    (f.buildLoader listing b flatten).2 = (openDataset dir listing).map fun ds => ⟨⟨ds, flatten⟩, b, !flatten⟩ := by
  intro f dir
  obtain ⟨h1, h2⟩ := nothing_built (order := order) ops (f := Front.init fs rank nw thr) hops rfl rfl
  have hd : f.fs = dir := congrArg Prod.fst (run_fs order ops (Front.init fs rank nw thr))
  have h1 : f.dataset = none := h1
  have h2 : f.loader = none := h2
  unfold Front.buildLoader Front.buildDataset
  rw [h1, h2, hd]
  cases openDataset dir listing with
  | error e => exact ⟨rfl, rfl⟩
  | ok ds =>
    refine ⟨rfl, ?_⟩
    dsimp only
    rw [if_neg (by omega)]
    rfl

/-- What the later requests return: whatever happened since, the dataset of the first successful request, with its flag. -/
theorem C16_later_partial (order : List Path) (f : Front) (listing₁ : List PyStr) (flatten₁ : Bool) (d : LogData)
    (h : (f.buildDataset listing₁ flatten₁).2 = .ok d) (ops : List FrontOp) (listing : List PyStr) (flatten : Bool) :
    ((runFront order ops (f.buildDataset listing₁ flatten₁).1).buildDataset listing flatten).2 = .ok d := by
  have : (f.buildDataset listing₁ flatten₁).1.dataset = some d := by
    revert h
    unfold Front.buildDataset
    split
    · next d' hd' => intro h; cases h; exact hd'
    · split
      · intro h; cases h
      · intro h; cases h; rfl
  rw [buildDataset_keeps (dataset_keeps ops this)]

/-- The same for loaders. -/
theorem C16_later_loader_partial (order : List Path) (f : Front) (listing₁ : List PyStr) (b₁ : Nat) (flatten₁ : Bool) (l : LogLoader)
    (h : (f.buildLoader listing₁ b₁ flatten₁).2 = .ok l) (ops : List FrontOp) (listing : List PyStr) (b : Nat) (flatten : Bool) :
    ((runFront order ops (f.buildLoader listing₁ b₁ flatten₁).1).buildLoader listing b flatten).2 = .ok l := by
  have : (f.buildLoader listing₁ b₁ flatten₁).1.loader = some l := by
    revert h
    unfold Front.buildLoader
    split
    · next d' hd' => intro h; cases h; exact hd'
    · split
      · intro h; cases h
      · split
        · intro h; cases h
        · intro h; cases h; rfl
  have := loader_keeps (order := order) ops this
  generalize runFront order ops _ = g at this ⊢
  unfold Front.buildLoader
  rw [this]

theorem directory_session (order : List Path) (ops : List SaverOp) : ∀ (fs fs' : FS) (s s' : Saver) (f : Front), f.fs = fs → f.saver = s →
    runSession order ops fs s = (fs', s', .ok ()) → Spec.directory order (ops.map FrontOp.saver) f = (fs', s') := by
  induction ops with
  | nil => rintro fs fs' s s' f rfl rfl h; cases h; rfl
  | cons o ops ih =>
    rintro fs fs' s s' f rfl rfl h
    unfold runSession at h
    revert h
    generalize ho : o.run order f.fs f.saver = r
    obtain ⟨a, b, c⟩ := r
    cases c with
    | error e => intro h; cases h
    | ok _ =>
      intro h
      have := ih a fs' b s' { f with fs := a, saver := b } rfl rfl h
      rw [← this]
      unfold Spec.directory
      simp only [List.map_cons, List.filterMap_cons, List.foldl_cons, ho]

/-- With C02: the first dataset of a run, built after any saves and a finalize, holds exactly the samples saved so far. -/
theorem C16_samples_partial (order : List Path) (ho : GoodOrder order) (n : Nat) (fs : FS) (hfs : (Dict.keys fs).Nodup) (hclean : NoLogs fs) (nw : Nat) (hnw : nw ≤ 1)
    (thr : Int) (ops : List SaverOp) (hgood : ∀ op ∈ ops, GoodOp order n op) (hids : ((history ops).map Prod.fst).Nodup) (flatten : Bool) :
    let f := runFront order ((ops ++ [SaverOp.finalize]).map FrontOp.saver) (Front.init fs 0 nw thr)
    ∀ listing : List PyStr, listing.Perm (Dict.keys f.fs) → ∃ d, (f.buildDataset listing flatten).2 = .ok d ∧ d.flatten = flatten ∧ Stores d.data order (history ops) := by
  intro f listing hl
  obtain ⟨fs', s', h1, h2⟩ := C02_no_loss order ho n fs hfs hclean nw hnw thr ops hgood hids
  have hdir := directory_session order (ops ++ [SaverOp.finalize]) fs fs' _ s' (Front.init fs 0 nw thr) rfl rfl h1
  have hrun := run_fs order ((ops ++ [SaverOp.finalize]).map FrontOp.saver) (Front.init fs 0 nw thr)
  rw [hdir] at hrun
  have hff : f.fs = fs' := congrArg Prod.fst hrun
  rw [hff] at hl
  obtain ⟨ds, h3, h4⟩ := h2 listing hl
  have := (C16_first_partial order ((ops ++ [SaverOp.finalize]).map FrontOp.saver) (by
    intro o ho
    obtain ⟨op, _, rfl⟩ := List.mem_map.1 ho
    exact id) fs 0 nw thr listing flatten 1 (by omega)).1
  rw [hdir] at this
  dsimp only at this
  rw [h3] at this
  exact ⟨⟨ds, flatten⟩, this, rfl, h4⟩

namespace ExFront
open Example

/-- The names of the directory, listed in some order. -/
def ls (f : Front) : List PyStr := Dict.keys f.fs

def f0 : Front := Front.init [] 0 1 1000

/-- A batch, finalize, a dataset, another batch, finalize. -/
def once : List FrontOp := [.saver (.save ["a".toList, "b".toList] (blog [(1, 2), (3, 4)])), .saver .finalize]
def f1 : Front := runFront order once f0
def twice : List FrontOp := once ++ [.dataset (ls f1) false, .saver (.save ["c".toList] (blog [(5, 6)])), .saver .finalize]
def f2 : Front := runFront order twice f0

/-- C16 is false: a dataset that was built once is returned for ever; here the second request misses the sample saved since. -/
theorem C16_refuted : ¬ ∀ (order : List Path) (ops : List FrontOp) (fs : FS) (rank nw : Nat) (thr : Int) (listing : List PyStr) (flatten : Bool),
    let f := runFront order ops (Front.init fs rank nw thr)
    listing.Perm (Dict.keys f.fs) → ∀ ds, openDataset f.fs listing = .ok ds → (f.buildDataset listing flatten).2 = .ok ⟨ds, flatten⟩ := by
  intro H
  have h := H order twice [] 0 1 1000 (ls f2) false (List.Perm.refl _)
  have hk : (match openDataset f2.fs (ls f2) with | .ok ds => decide (ds.len = 3) | .error _ => false) = true := by decide +kernel
  have hb : (match (f2.buildDataset (ls f2) false).2 with | .ok d => decide (d.data.len = 2) | .error _ => false) = true := by decide +kernel
  cases ho : openDataset f2.fs (ls f2) with
  | error e => rw [ho] at hk; cases hk
  | ok ds =>
    rw [ho] at hk
    have h' : (f2.buildDataset (ls f2) false).2 = .ok ⟨ds, false⟩ := h ds ho
    rw [h'] at hb
    have h1 := of_decide_eq_true hk
    have h2 := of_decide_eq_true hb
    dsimp only at h2
    omega

/-- The flag of a later request is ignored as well: a nested loader on top of a flat dataset cannot be iterated. -/
theorem C16_flag_refuted : ¬ ∀ (order : List Path) (ops : List FrontOp) (fs : FS) (rank nw : Nat) (thr : Int) (listing : List PyStr) (flatten : Bool) (b : Nat),
    let f := runFront order ops (Front.init fs rank nw thr)
    listing.Perm (Dict.keys f.fs) → 0 < b → ∀ ds, openDataset f.fs listing = .ok ds → loadBatches ds b ≠ .error .attributeError →
      ∀ l, (f.buildLoader listing b flatten).2 = .ok l → l.set.flatten = flatten ∧ l.batches ≠ .error .attributeError := by
  intro H
  have h := H order (once ++ [.dataset (ls f1) true]) [] 0 1 1000 (ls f1) false 1 (List.Perm.refl _) (by decide)
  have hk : (match openDataset f1.fs (ls f1) with | .ok ds => (loadBatches ds 1).toOption.isSome | .error _ => false) = true := by decide +kernel
  have hb : (match ((runFront order (once ++ [.dataset (ls f1) true]) f0).buildLoader (ls f1) 1 false).2 with | .ok l => l.set.flatten | .error _ => false) = true := by
    decide +kernel
  cases ho : openDataset f1.fs (ls f1) with
  | error e => rw [ho] at hk; cases hk
  | ok ds =>
    rw [ho] at hk
    dsimp only at hk
    have hfs : (runFront order (once ++ [.dataset (ls f1) true]) f0).fs = f1.fs := by decide +kernel
    have h := h ds (by rw [← ho, ← hfs]; rfl) (by intro he; rw [he] at hk; cases hk)
    cases hl : ((runFront order (once ++ [.dataset (ls f1) true]) f0).buildLoader (ls f1) 1 false).2 with
    | error e => rw [hl] at hb; cases hb
    | ok l =>
      rw [hl] at hb
      have := (h l hl).1
      dsimp only at hb
      rw [hb] at this
      cases this

/-- In that history the loader raises AttributeError when it is iterated. -/
example : (match ((runFront order (once ++ [.dataset (ls f1) true]) f0).buildLoader (ls f1) 1 false).2 with
    | .ok l => (match l.batches with | .error .attributeError => true | _ => false)
    | .error _ => false) = true := by decide +kernel

/-- The hypotheses of the theorems are met: `once` and the session of Props/SaverFaults. -/
example : ∀ o ∈ once, ¬ o.Builds := by
  intro o ho
  simp only [once, List.mem_cons, List.not_mem_nil, or_false] at ho
  rcases ho with rfl | rfl <;> exact id

example (flatten : Bool) : let f := runFront order ((ops ++ [SaverOp.finalize]).map FrontOp.saver) (Front.init [] 0 1 5)
    ∀ listing : List PyStr, listing.Perm (Dict.keys f.fs) → ∃ d, (f.buildDataset listing flatten).2 = .ok d ∧ d.flatten = flatten ∧ Stores d.data order (history ops) :=
  C16_samples_partial order goodOrder 2 [] (by simp [Dict.keys]) (by intro f hf; simp [Dict.keys] at hf) 1 (by omega) 5 ops ops_good ops_ids flatten

/-- A successful first request, as `C16_later_partial` asks for. -/
example : ((f1.buildDataset (ls f1) false).2.toOption).isSome = true := by decide +kernel

end ExFront
end Logix
