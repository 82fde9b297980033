/-
A logging session with tensors that fit together: no operation raises.
-/
import Verif.Lemmas.SessionFine
import Verif.Props.SessionSaves

set_option linter.unusedSectionVars false

namespace Logix
open Spec Sess
variable {K : Type}

/-- The fields besides tensors, log and statistics that matter below. -/
def restPart (s : Sess K) := (s.pre ++ s.bwd ++ s.fwd, s.tens, s.calls, s.modules, s.names, s.dataId, s.paths, s.buffer)

theorem restPart_quiet {s t : Sess K} (h : Quiet s t) : restPart t = restPart s := by
  have h' := congrArg restPart (show ({ t with user := s.user, own := s.own, log := s.log, st := s.st } : Sess K) = s from h)
  exact h'

/-- What is known about a session that logs tensors that fit together, besides the books. -/
structure Tame [Field K] (E : SEnv K) (opt : LogOption) (Q : Option (Tensor K) → Prop) (keys : List PyStr) (mods : PyStr → Nat) (lay : Layout) (k : Nat) (tensors : List (TObj K)) (f : Saving) (b : Nat → Book K)
    (s : Sess K) : Prop where
  user : ∃ u0 : List (TObj K), u0.length = k ∧ s.user = u0 ++ tensors
  names : ∀ h ∈ s.pre ++ s.bwd ++ s.fwd, h.name ∈ keys
  tens : ∀ h ∈ s.tens, ∃ mod x name, h.fn = .grad mod x name ∧ name ∈ keys
  calls : ∀ c ∈ s.calls, ∀ n ∈ c.names, n ∈ keys
  watched : ∀ m ∈ s.modules, ∃ nm ∈ keys, Dict.get? s.names m = some nm
  stat : Stat E lay opt Q s
  log : LogFine lay keys f.ids.length s
  agrees : Agrees f s
  data : s.dataId.isSome
  buf : BufOk lay keys s
  paths : s.paths = gradOrder keys
  seen : ∀ nm ∈ keys, ∀ c ∈ (b (mods nm)).uses ++ (b (mods nm)).fresh, ∃ n a, tensors[c.1]? = some a ∧ IsInput lay nm n a.val (E.kind (mods nm))
  masks : ∀ nm ∈ keys, Q (b (mods nm)).mask

section
variable [Field K] {E : SEnv K} {opt : LogOption} {U : List (TObj K)} {keys : List PyStr} {mods : PyStr → Nat} {lay : Layout} {k : Nat} {tensors : List (TObj K)}
  {f : Saving} {b : Nat → Book K} {s t : Sess K} {Q : Option (Tensor K) → Prop}

theorem step_shift (f : Saving) (o : SOp K) : f.step (shift k o) = f.step o := by cases o <;> rfl

theorem seen_step {o : SOp K} (ho : OpFits E opt keys mods lay tensors f b o)
    (h : ∀ nm ∈ keys, ∀ c ∈ (b (mods nm)).uses ++ (b (mods nm)).fresh, ∃ n a, tensors[c.1]? = some a ∧ IsInput lay nm n a.val (E.kind (mods nm))) :
    ∀ nm ∈ keys, ∀ c ∈ ((b (mods nm)).step (mods nm) o).uses ++ ((b (mods nm)).step (mods nm) o).fresh,
      ∃ n a, (tensors ++ allocs [o])[c.1]? = some a ∧ IsInput lay nm n a.val (E.kind (mods nm)) := by
  intro nm hm c hc
  have hmono : (∃ n a, tensors[c.1]? = some a ∧ IsInput lay nm n a.val (E.kind (mods nm))) →
      ∃ n a, (tensors ++ allocs [o])[c.1]? = some a ∧ IsInput lay nm n a.val (E.kind (mods nm)) := by
    rintro ⟨n, a, h1, h2⟩
    exact ⟨n, a, prefix_get (List.prefix_append ..) h1, h2⟩
  apply hmono
  cases o with
  | forward m' x y =>
    unfold Book.step at hc
    dsimp only at hc
    split at hc
    · next e =>
      obtain ⟨⟨n, a, g1, -, g2, -⟩, -⟩ := ho.2.2 nm hm e.symm
      have hcase : c ∈ (b (mods nm)).uses ++ (b (mods nm)).fresh ∨ c = (x, y) := by
        rcases List.mem_append.1 hc with hc | hc
        · rcases List.mem_append.1 hc with hc | hc
          · exact .inl (List.mem_append_left _ hc)
          · exact .inr (List.mem_singleton.1 hc)
        · rcases List.mem_append.1 hc with hc | hc
          · exact .inl (List.mem_append_right _ hc)
          · exact .inr (List.mem_singleton.1 hc)
      rcases hcase with hc | rfl
      · exact h nm hm c hc
      · exact ⟨n, a, g1, by rw [← e]; exact g2⟩
    · exact h nm hm c hc
  | enter =>
    rcases List.mem_append.1 hc with hc | hc
    · exact h nm hm c (List.mem_append_left _ hc)
    · cases hc
  | start ids mask =>
    rcases List.mem_append.1 hc with hc | hc
    · exact h nm hm c (List.mem_append_left _ hc)
    · cases hc
  | _ => exact h nm hm c hc

theorem masks_step {o : SOp K} (ho : Masks Q o) (h : ∀ nm ∈ keys, Q (b (mods nm)).mask) : ∀ nm ∈ keys, Q ((b (mods nm)).step (mods nm) o).mask := by
  intro nm hm
  cases o with
  | forward m' x y =>
    unfold Book.step
    dsimp only
    split
    · exact h nm hm
    · exact h nm hm
  | call ids mask sv => exact ho
  | start ids mask => exact ho
  | log ids mask => exact ho
  | _ => exact h nm hm

/-- An operation that has returned and leaves hooks and buffer alone. -/
theorem Tame.next {o : SOp K} (h : Tame E opt Q keys mods lay k tensors f b s) (ho : OpFits E opt keys mods lay tensors f b o) (hm : Masks Q o) (hr : (shift k o).run E s = (t, none))
    (hu : t.user = s.user ++ allocs [o]) (hnames : ∀ h ∈ t.pre ++ t.bwd ++ t.fwd, h.name ∈ keys)
    (htens : ∀ h ∈ t.tens, ∃ mod x name, h.fn = .grad mod x name ∧ name ∈ keys) (hcalls : ∀ c ∈ t.calls, ∀ n ∈ c.names, n ∈ keys)
    (hmod : t.modules = s.modules ∧ t.names = s.names ∧ t.paths = s.paths) (hd : t.dataId.isSome) (hst : Stat E lay opt Q t) (hb : BufOk lay keys t)
    (hl : LogFine lay keys (f.step o).ids.length t) :
    Tame E opt Q keys mods lay k (tensors ++ allocs [o]) (f.step o) (fun m => (b m).step m o) t := by
  obtain ⟨u0, h1, h2⟩ := h.user
  refine ⟨⟨u0, h1, by rw [hu, h2, List.append_assoc]⟩, hnames, htens, hcalls, ?_, hst, hl, ?_, hd, hb, hmod.2.2.trans h.paths, seen_step ho h.seen,
    masks_step hm h.masks⟩
  · rw [hmod.1, hmod.2.1]
    exact h.watched
  · have := agrees_step E h.agrees (shift k o)
    rw [hr, step_shift] at this
    exact this

theorem Tame.rest {o : SOp K} (h : Tame E opt Q keys mods lay k tensors f b s) (ho : OpFits E opt keys mods lay tensors f b o) (hm : Masks Q o) (hr : (shift k o).run E s = (t, none))
    (hu : t.user = s.user ++ allocs [o]) (e : restPart t = restPart s) (hsh : Shapes s t) (hst : Stat E lay opt Q t) (hl : LogFine lay keys (f.step o).ids.length t) :
    Tame E opt Q keys mods lay k (tensors ++ allocs [o]) (f.step o) (fun m => (b m).step m o) t := by
  simp only [restPart, Prod.mk.injEq] at e
  obtain ⟨e1, e2, e3, e4, e5, e6, e7, e8⟩ := e
  refine h.next ho hm hr hu ?_ ?_ ?_ ⟨e4, e5, e7⟩ ?_ hst (h.buf.mono hsh e8) hl
  · rw [e1]; exact h.names
  · rw [e2]; exact h.tens
  · rw [e3]; exact h.calls
  · rw [e6]; exact h.data

theorem Still.shapes (h : Still s t) : Shapes s t := by
  obtain ⟨-, -, -, l, hl⟩ := h
  exact Shapes.of_append hl

/-- The hook belongs to the module of its name. -/
theorem hook_mod {l : List ModHook} {m : Nat} {nm : PyStr} (h : OwnHook m nm l) {a : ModHook} (ha : a ∈ l) (hn : a.name = nm) : a.mod = m := by
  by_contra hne
  exact h.2 a ha hne hn

theorem user_at (h : Tame E opt Q keys mods lay k tensors f b s) {x : Nat} {a : TObj K} (hx : tensors[x]? = some a) : s.user[x + k]? = some a := by
  obtain ⟨u0, rfl, h2⟩ := h.user
  rw [h2, get_shift]
  exact hx

theorem plain_of (hp : PlainStats opt) : (.log ∉ opt.forward → ∀ p ∈ opt.forward, p = .mean ∨ p = .covariance) ∧
    (.log ∉ opt.backward → ∀ p ∈ opt.backward, p = .mean ∨ p = .covariance) ∧ (.log ∉ opt.grad.tail → ∀ p ∈ opt.grad.tail, p = .mean ∨ p = .covariance) := by
  have key : ∀ l : List Plugin, (∀ p ∈ l, p ∈ opt.forward ++ opt.backward ++ opt.grad) → .log ∉ l → ∀ p ∈ l, p = .mean ∨ p = .covariance := by
    intro l hl hn p hpl
    rcases hp p (hl p hpl) with h | h
    · rw [h] at hpl
      exact absurd hpl hn
    · exact h
  exact ⟨key _ fun p h => List.mem_append_left _ (List.mem_append_left _ h), key _ fun p h => List.mem_append_left _ (List.mem_append_right _ h),
    key _ fun p h => List.mem_append_right _ (List.mem_of_mem_tail h)⟩

/-- What does not change. -/
structure FixedConf (opt : LogOption) (keys : List PyStr) (lay : Layout) : Prop where
  stats : OnlyStatistics opt
  plain : PlainStats opt
  grad : opt.grad = [] ∨ opt.grad.head? = some .log
  nonempty : keys ≠ []
  nodup : keys.Nodup
  pos : ∀ nm ∈ keys, 0 < lay.rows nm ∧ 0 < lay.cols nm

variable (hF : FixedConf opt keys lay)
include hF

theorem forward_returns (h : Tame E opt Q keys mods lay k tensors f b s) (hi : ∀ nm ∈ keys, Ins E opt U (mods nm) k nm (b (mods nm)) s) (m x y : Nat)
    (ho : OpFits E opt keys mods lay tensors f b (.forward m x y)) :
    ∃ t, Sess.forward E m (x + k) (y + k) s = (t, none) ∧ t.user = s.user ∧
      Tame E opt Q keys mods lay k (tensors ++ allocs [.forward m x y]) (f.step (K := K) (.forward m x y)) (fun m' => (b m').step m' (.forward m x y)) t := by
  obtain ⟨nm0, hnm0⟩ := List.exists_mem_of_ne_nil keys hF.nonempty
  have hopt := (hi nm0 hnm0).hopt
  have hlen : s.user.length = k + tensors.length := by
    obtain ⟨u0, h1, h2⟩ := h.user
    rw [h2, List.length_append, h1]
  obtain ⟨hx, hy, hfit⟩ := ho
  have hif : ¬ (s.user.length ≤ x + k ∨ s.user.length ≤ y + k) := by omega
  have hmem : ∀ a ∈ s.pre ++ s.bwd ++ s.fwd, a.mod = m → mods a.name = m := by
    intro a ha hm
    have hk := h.names a ha
    have hin := hi a.name hk
    rcases List.mem_append.1 ha with ha | ha
    · rcases List.mem_append.1 ha with ha | ha
      · rw [← hook_mod hin.pre ha rfl]; exact hm
      · rw [← hook_mod hin.bwd ha rfl]; exact hm
    · rw [← hook_mod hin.fwd ha rfl]; exact hm
  obtain ⟨s1, a1, st1, stat1⟩ := each_returns (f := fun h : ModHook => Sess.forwardHook E m (x + k) h.name) (P := fun u => Still s u ∧ Stat E lay opt Q u)
    (s.pre.filter fun h => h.mod = m) (by
      rintro a ha u ⟨su, stu⟩
      obtain ⟨ha1, ha2⟩ := List.mem_filter.1 ha
      have ha1' : a ∈ s.pre ++ s.bwd ++ s.fwd := List.mem_append_left _ (List.mem_append_left _ ha1)
      have hmod := hmem a ha1' (by simpa using ha2)
      obtain ⟨⟨n, v, g1, -, g2, g3⟩, -⟩ := hfit a.name (h.names a ha1') hmod
      have hou : u.opt = opt := (opt_of_quiet su.1).trans hopt
      obtain ⟨w, e1, e2⟩ := forwardHook_returns (E := E) (nm := a.name) (n := n) (s := u) m (x + k) stu (by rw [su.2.1]; exact user_at h g1) g2
        (hF.pos a.name (h.names a ha1')).2 (by
          rw [mask_of_quiet su.1, (hi a.name (h.names a ha1')).mask, hmod]
          exact g3) (by rw [hou]; exact (plain_of hF.plain).1 hF.stats.1) hou (by
          rw [mask_of_quiet su.1, (hi nm0 hnm0).mask]; exact h.masks nm0 hnm0)
      have st := forwardHook_still E m (x + k) a.name u (by rw [hou]; exact hF.stats.1)
      rw [e1] at st
      exact ⟨w, e1, su.trans st, e2⟩) s ⟨Still.refl s, h.stat⟩
  have hr1 := restPart_quiet st1.1
  have hfwd : s1.fwd = s.fwd := by
    have h' := congrArg Sess.fwd (show ({ s1 with user := s.user, own := s.own, log := s.log, st := s.st } : Sess K) = s from st1.1)
    exact h'
  let names := (s.bwd.filter fun h => h.mod = m).map ModHook.name
  let s2 : Sess K := { s1 with calls := s1.calls ++ [⟨y + k, m, names⟩] }
  obtain ⟨t, a2, ht1, ht2⟩ := each_returns (f := fun h : ModHook => gradHook m (x + k) (y + k) h.name)
    (P := fun u => ({ u with nextId := s2.nextId, tens := s2.tens, hTens := s2.hTens } : Sess K) = s2 ∧
      ∀ h ∈ u.tens, ∃ mod x name, h.fn = .grad mod x name ∧ name ∈ keys)
    (s2.fwd.filter fun h => h.mod = m) (by
      rintro a ha u ⟨eu, tu⟩
      obtain ⟨ha1, ha2⟩ := List.mem_filter.1 ha
      have ha1' : a ∈ s.pre ++ s.bwd ++ s.fwd := List.mem_append_right _ (by rw [← hfwd]; exact ha1)
      have hk := h.names a ha1'
      obtain ⟨-, o, g1, g2⟩ := hfit a.name hk (hmem a ha1' (by simpa using ha2))
      have huser : u.user = s.user := by
        have h' := congrArg Sess.user eu
        exact (show u.user = s1.user from h').trans st1.2.1
      have hob : u.obj (.user (y + k)) = some o := by
        show u.user[y + k]? = some o
        rw [huser]
        exact user_at h g1
      refine ⟨{ u with nextId := u.nextId + 1, tens := u.tens ++ [⟨u.nextId, y + k, .grad m (x + k) a.name⟩], hTens := u.hTens ++ [u.nextId] }, ?_, eu, ?_⟩
      · unfold gradHook registerTensorHook
        rw [hob]
        exact if_pos g2
      · intro c hc
        rcases List.mem_append.1 hc with hc | hc
        · exact tu c hc
        · rw [List.mem_singleton.1 hc]
          exact ⟨_, _, _, rfl, hk⟩) s2 ⟨rfl, by
      intro c hc
      simp only [restPart, Prod.mk.injEq] at hr1
      rw [show s2.tens = s.tens from hr1.2.1] at hc
      exact h.tens c hc⟩
  have hrun : Sess.forward E m (x + k) (y + k) s = (t, none) := by
    unfold Sess.forward
    rw [if_neg hif]
    dsimp only
    rw [SAct.seq_eq a1]
    exact a2
  have huser : t.user = s.user := by
    have h' := congrArg Sess.user ht1
    exact (show t.user = s1.user from h').trans st1.2.1
  have hsh : Shapes s t := by
    have h' := congrArg Sess.own ht1
    exact st1.shapes.trans (Shapes.of_eq h')
  simp only [restPart, Prod.mk.injEq] at hr1
  obtain ⟨r1, r2, r3, r4, r5, r6, r7, r8⟩ := hr1
  refine ⟨t, hrun, huser, h.next ⟨hx, hy, hfit⟩ trivial hrun (by rw [huser]; simp [allocs]) ?_ ht2 ?_ ⟨?_, ?_, ?_⟩ ?_ ?_ (h.buf.mono hsh ?_) ?_⟩
  · have h' := congrArg (fun u : Sess K => u.pre ++ u.bwd ++ u.fwd) ht1
    rw [show t.pre ++ t.bwd ++ t.fwd = s1.pre ++ s1.bwd ++ s1.fwd from h', r1]
    exact h.names
  · have h' := congrArg Sess.calls ht1
    rw [show t.calls = s1.calls ++ [⟨y + k, m, names⟩] from h', r3]
    intro c hc
    rcases List.mem_append.1 hc with hc | hc
    · exact h.calls c hc
    · rw [List.mem_singleton.1 hc]
      intro n hn
      obtain ⟨a, ha, rfl⟩ := List.mem_map.1 hn
      exact h.names a (List.mem_append_left _ (List.mem_append_right _ (List.mem_filter.1 ha).1))
  · have h' := congrArg Sess.modules ht1
    exact (show t.modules = s1.modules from h').trans r4
  · have h' := congrArg Sess.names ht1
    exact (show t.names = s1.names from h').trans r5
  · have h' := congrArg Sess.paths ht1
    exact (show t.paths = s1.paths from h').trans r7
  · have h' := congrArg Sess.dataId ht1
    rw [show t.dataId = s1.dataId from h', r6]
    exact h.data
  · have h' := congrArg Sess.st ht1
    exact stat1.congr h'
  · have h' := congrArg Sess.buffer ht1
    exact (show t.buffer = s1.buffer from h').trans r8
  · have h' := congrArg Sess.log ht1
    exact h.log.mono hsh ((show t.log = s1.log from h').trans st1.2.2.1)

theorem gradAt_returns (h : Tame E opt Q keys mods lay k tensors f b s) (hi : ∀ nm ∈ keys, Ins E opt U (mods nm) k nm (b (mods nm)) s) (y g : Nat)
    (ho : OpFits E opt keys mods lay tensors f b (.gradAt y g)) :
    ∃ t, Sess.gradAt E (y + k) (g + k) s = (t, none) ∧ t.user = s.user ∧
      Tame E opt Q keys mods lay k (tensors ++ allocs [.gradAt y g]) (f.step (K := K) (.gradAt y g)) (fun m' => (b m').step m' (.gradAt y g)) t := by
  obtain ⟨nm0, hnm0⟩ := List.exists_mem_of_ne_nil keys hF.nonempty
  have hopt := (hi nm0 hnm0).hopt
  obtain ⟨t, a1, q, hu, hl, hst, hsh⟩ := each_returns (f := fun h : TensorHook => match h.fn with
      | .grad mod x name => Sess.gradBackwardHook E mod x (g + k) name
      | .activation name => tensorBackwardHook E (g + k) name)
    (P := fun u => Quiet s u ∧ u.user = s.user ∧ LogFine lay keys f.ids.length u ∧ Stat E lay opt Q u ∧ Shapes s u) (s.tens.filter fun h => h.out = y + k) (by
      rintro a ha u ⟨q, hu, hl, hst, hsh⟩
      obtain ⟨ha1, ha2⟩ := List.mem_filter.1 ha
      obtain ⟨mod, x, name, hfn, hk⟩ := h.tens a ha1
      have hmem : (mod, x, a.out) ∈ hooksFor name s.tens := by
        refine List.mem_filterMap.2 ⟨a, ha1, ?_⟩
        rw [hfn]
        exact if_pos rfl
      rw [(hi name hk).tens] at hmem
      obtain ⟨c, hc, ec⟩ := List.mem_map.1 hmem
      simp only [Prod.mk.injEq] at ec
      obtain ⟨rfl, rfl, ec⟩ := ec
      have hout : a.out = y + k := by simpa using ha2
      obtain ⟨v, o, g1, g2, g3, g4⟩ := ho name hk c hc (by omega)
      obtain ⟨n', v', j1, j2⟩ := h.seen name hk c (List.mem_append_right _ hc)
      have hv : v' = v := Option.some.inj (j1.symm.trans g1)
      subst hv
      obtain ⟨w, e1, e2, e3, e4, e5⟩ := gradBackwardHook_returns (E := E) (nm := name) (s := u) (mods name) (c.1 + k) (g + k) hl hst hk (List.length_pos_iff.2 g3)
        (by rw [hu]; exact user_at h g1) (by rw [hu]; exact user_at h g2) ⟨n', j2⟩ g4 (hF.pos name hk).1 (by rw [opt_of_quiet q, hopt]; exact hF.grad)
      have q2 := gradBackwardHook_quiet E (mods name) (c.1 + k) (g + k) name u
      rw [e1] at q2
      refine ⟨w, ?_, q.trans q2, e5.trans hu, e2, e3, hsh.trans e4⟩
      rw [hfn]
      exact e1) s ⟨Quiet.refl s, rfl, h.log, h.stat, Shapes.refl s⟩
  exact ⟨t, a1, hu, h.rest ho trivial a1 (by rw [hu]; simp [allocs]) (restPart_quiet q) hsh hst hl⟩

theorem backward_returns (h : Tame E opt Q keys mods lay k tensors f b s) (hi : ∀ nm ∈ keys, Ins E opt U (mods nm) k nm (b (mods nm)) s) (y g : Nat)
    (ho : OpFits E opt keys mods lay tensors f b (.backward y g)) :
    ∃ t, Sess.backward E (y + k) (g + k) s = (t, none) ∧ t.user = s.user ∧
      Tame E opt Q keys mods lay k (tensors ++ allocs [.backward y g]) (f.step (K := K) (.backward y g)) (fun m' => (b m').step m' (.backward y g)) t := by
  obtain ⟨nm0, hnm0⟩ := List.exists_mem_of_ne_nil keys hF.nonempty
  have hopt := (hi nm0 hnm0).hopt
  obtain ⟨t, a1, st, hst⟩ := each_returns (f := fun c : PastCall => SAct.each (fun name => backwardHook E c.mod (g + k) name) c.names)
    (P := fun u => Still s u ∧ Stat E lay opt Q u) (s.calls.filter fun c => c.out = y + k) (by
      intro c hc u hP
      refine each_returns (f := fun name => backwardHook E c.mod (g + k) name) (P := fun u => Still s u ∧ Stat E lay opt Q u) c.names ?_ u hP
      rintro name hname u ⟨su, stu⟩
      have hk := h.calls c (List.mem_filter.1 hc).1 name hname
      have hmem : (c.mod, c.out) ∈ (callsFor k name s.calls).filter fun c => c.2 = y + k := by
        rw [← callsFor_filter]
        exact List.mem_flatMap.2 ⟨c, hc, List.mem_map.2 ⟨name, List.mem_filter.2 ⟨hname, by simp⟩, rfl⟩⟩
      obtain ⟨hm1, hm2⟩ := List.mem_filter.1 hmem
      rw [(hi name hk).calls] at hm1
      obtain ⟨c', hc', ec⟩ := List.mem_map.1 hm1
      simp only [Prod.mk.injEq] at ec
      simp only [decide_eq_true_eq] at hm2
      obtain ⟨n, v, o, g1, g2, g3, g4⟩ := ho name hk c' hc' (by omega)
      have hou : u.opt = opt := (opt_of_quiet su.1).trans hopt
      obtain ⟨w, e1, e2⟩ := backwardHook_returns (E := E) (nm := name) (n := n) (s := u) (x := v) c.mod (g + k) stu (by rw [su.2.1]; exact user_at h g2)
        (by rw [← ec.1]; exact g4) (hF.pos name hk).1 (by rw [hou]; exact (plain_of hF.plain).2.1 hF.stats.2.1) hou (by
          rw [mask_of_quiet su.1, (hi nm0 hnm0).mask]; exact h.masks nm0 hnm0)
      have st := backwardHook_still E c.mod (g + k) name u (by rw [hou]; exact hF.stats.2.1)
      rw [e1] at st
      exact ⟨w, e1, su.trans st, e2⟩) s ⟨Still.refl s, h.stat⟩
  exact ⟨t, a1, st.2.1, h.rest ho trivial a1 (by rw [st.2.1]; simp [allocs]) (restPart_quiet st.1) st.shapes hst (h.log.mono st.shapes st.2.2.1)⟩

theorem arrived_logged {nm : PyStr} {bk : Book K} {m : Nat} (hi : Ins E opt U m k nm bk s) (hg : opt.grad ≠ []) (ha : bk.arrived ≠ []) : nm ∈ Dict.keys s.log := by
  have hhead : opt.grad.head? = some .log := hF.grad.resolve_left hg
  obtain ⟨vs, h1, h2⟩ := hi.grads hhead
  rcases accum_none vs _ h2 with ⟨rfl, -⟩ | ⟨T, h3, -⟩
  · exact absurd (List.forall₂_nil_right_iff.1 h1) ha
  · rw [← Dict.get?_isSome_iff]
    unfold logged at h3
    cases hd : Dict.get? s.log nm with
    | none => rw [hd] at h3; cases h3
    | some d => rfl

theorem update_returns {n : Nat} (hopt : s.opt = opt) (hst : Stat E lay opt Q s) (hl : LogFine lay keys n s) (hb : BufOk lay keys s) (hp : s.paths = gradOrder keys) (save : Bool)
    (hs : save = true → ∃ ids, s.dataId = some ids ∧ ids.length = n ∧ ∀ nm ∈ keys, nm ∈ Dict.keys s.log) (hQ : Q s.mask) :
    ∃ st t, Sess.update E save s = (t, none) ∧ SaveOnly { s with st := st } t ∧ Stat E lay opt Q t ∧ BufOk lay keys t := by
  obtain ⟨st, h1, h2⟩ := gradStats_return (E := E) hl hst s.opt.grad.tail (by rw [hopt]; exact (plain_of hF.plain).2.2 hF.stats.2.2)
    (fun p h => by rw [← hopt]; exact h) hQ
  refine ⟨st, ?_⟩
  rw [update_eq, SAct.seq_eq h1]
  cases save with
  | false => exact ⟨_, rfl, SaveOnly.refl _, h2, hb.mono (Shapes.refl s) rfl⟩
  | true =>
    obtain ⟨ids, g1, g2, g3⟩ := hs rfl
    obtain ⟨t, e1, e2⟩ := saveLog_returns (E := E) (s := { s with st := st }) g1 (by rw [g2]; exact hl.mono (Shapes.refl s) rfl) (hb.mono (Shapes.refl s) rfl) g3 hp
      hF.nonempty hF.nodup hF.pos
    have hso := saveLog_saveOnly E { s with st := st }
    rw [e1] at hso
    refine ⟨t, e1, hso, h2.congr ?_, e2⟩
    have h' := congrArg Sess.st (show ({ t with saver := s.saver, buffer := s.buffer, bufferSize := s.bufferSize, fs := s.fs } : Sess K) = { s with st := st } from hso)
    exact h'

/-- The end of a batch. -/
theorem ends_returns {o : SOp K} (h : Tame E opt Q keys mods lay k tensors f b s) (hi : ∀ nm ∈ keys, Ins E opt U (mods nm) k nm (b (mods nm)) s) (save : Bool)
    (hrun : (shift k o).run E s = Sess.update E save s) (hstep : f.step o = f) (hall : allocs [o] = [])
    (ho : OpFits E opt keys mods lay tensors f b o) (hm : Masks Q o) (hs : save = true → opt.grad ≠ [] ∧ ∀ nm ∈ keys, (b (mods nm)).arrived ≠ []) :
    ∃ t, (shift k o).run E s = (t, none) ∧ t.user = s.user ++ allocs [o] ∧
      Tame E opt Q keys mods lay k (tensors ++ allocs [o]) (f.step o) (fun m => (b m).step m o) t := by
  obtain ⟨nm0, hnm0⟩ := List.exists_mem_of_ne_nil keys hF.nonempty
  obtain ⟨ids, hids⟩ := Option.isSome_iff_exists.1 h.data
  have hlen : ids = f.ids := by
    have := h.agrees.1
    rw [hids] at this
    exact this
  obtain ⟨st, t, e1, e2, e3, e4⟩ := update_returns (E := E) hF (hi nm0 hnm0).hopt h.stat h.log h.buf h.paths save (fun hsv =>
    ⟨ids, hids, by rw [hlen], fun nm hm => arrived_logged hF (hi nm hm) (hs hsv).1 ((hs hsv).2 nm hm)⟩)
    (by rw [(hi nm0 hnm0).mask]; exact h.masks nm0 hnm0)
  rw [← hrun] at e1
  have hso : ({ t with saver := s.saver, buffer := s.buffer, bufferSize := s.bufferSize, fs := s.fs } : Sess K) = { s with st := st } := e2
  have hu : t.user = s.user := by
    have h' := congrArg Sess.user hso
    exact h'
  have hsh : Shapes s t := by
    have h' := congrArg Sess.own hso
    exact Shapes.of_eq h'
  have hu' : t.user = s.user ++ allocs [o] := by rw [hall, List.append_nil, hu]
  refine ⟨t, e1, hu', h.next ho hm e1 hu' ?_ ?_ ?_ ⟨?_, ?_, ?_⟩ ?_ e3 e4 ?_⟩
  · have h' := congrArg (fun u : Sess K => u.pre ++ u.bwd ++ u.fwd) hso
    rw [show t.pre ++ t.bwd ++ t.fwd = s.pre ++ s.bwd ++ s.fwd from h']
    exact h.names
  · have h' := congrArg Sess.tens hso
    rw [show t.tens = s.tens from h']
    exact h.tens
  · have h' := congrArg Sess.calls hso
    rw [show t.calls = s.calls from h']
    exact h.calls
  · have h' := congrArg Sess.modules hso
    exact h'
  · have h' := congrArg Sess.names hso
    exact h'
  · have h' := congrArg Sess.paths hso
    exact h'
  · have h' := congrArg Sess.dataId hso
    rw [show t.dataId = s.dataId from h']
    exact h.data
  · have h' := congrArg Sess.log hso
    rw [hstep]
    exact h.log.mono hsh h'

omit hF in
/-- Hooks are registered. -/
theorem open_returns (hh : Handles s) (hw : ∀ m ∈ s.modules, ∃ nm ∈ keys, Dict.get? s.names m = some nm) :
    ∃ t, registerAllModuleHooks s.clearHooks = (t, none) ∧
      ({ t with nextId := s.nextId, pre := s.pre, bwd := s.bwd, fwd := s.fwd, tens := s.tens, hPre := s.hPre, hBwd := s.hBwd, hFwd := s.hFwd, hTens := s.hTens } : Sess K) = s ∧
      (∀ h ∈ t.pre ++ t.bwd ++ t.fwd, h.name ∈ keys) ∧ t.tens = [] := by
  obtain ⟨-, c1, c2, c3, c4⟩ := clearHooks_handles hh
  refine each_returns (f := registerModule) (P := fun t : Sess K =>
      ({ t with nextId := s.nextId, pre := s.pre, bwd := s.bwd, fwd := s.fwd, tens := s.tens, hPre := s.hPre, hBwd := s.hBwd, hFwd := s.hFwd, hTens := s.hTens } : Sess K) = s ∧
      (∀ h ∈ t.pre ++ t.bwd ++ t.fwd, h.name ∈ keys) ∧ t.tens = []) s.clearHooks.modules ?_ s.clearHooks ⟨rfl, ?_, c4⟩
  · rintro m hm u ⟨e, hn, ht⟩
    obtain ⟨nm, hk, hg⟩ := hw m hm
    have hg' : Dict.get? u.names m = some nm := by
      have h' := congrArg Sess.names e
      rw [show u.names = s.names from h']
      exact hg
    unfold registerModule
    rw [hg']
    refine ⟨_, rfl, e, ?_, ht⟩
    intro a ha
    simp only [List.mem_append, List.mem_singleton] at ha hn
    rcases ha with ((ha | rfl) | (ha | rfl)) | (ha | rfl)
    · exact hn a (.inl (.inl ha))
    · exact hk
    · exact hn a (.inl (.inr ha))
    · exact hk
    · exact hn a (.inr ha)
    · exact hk
  · rw [c1, c2, c3]
    nofun

omit hF in
theorem LogFine.empty {n : Nat} (h : s.log = []) : LogFine lay keys n s := by
  intro e he
  rw [h] at he
  cases he

/-- Every operation of a program that fits together returns. -/
theorem op_returns (o : SOp K) (h : Tame E opt Q keys mods lay k tensors f b s) (hi : ∀ nm ∈ keys, Ins E opt U (mods nm) k nm (b (mods nm)) s)
    (ho : OpFits E opt keys mods lay tensors f b o) (hm : Masks Q o) (hU : s.user ++ allocs [o] <+: U) :
    ∃ t, (shift k o).run E s = (t, none) ∧ t.user = s.user ++ allocs [o] ∧
      Tame E opt Q keys mods lay k (tensors ++ allocs [o]) (f.step o) (fun m => (b m).step m o) t ∧
      ∀ nm ∈ keys, Ins E opt U (mods nm) k nm ((b (mods nm)).step (mods nm) o) t := by
  suffices hsuff : ∃ t, (shift k o).run E s = (t, none) ∧ t.user = s.user ++ allocs [o] ∧
      Tame E opt Q keys mods lay k (tensors ++ allocs [o]) (f.step o) (fun m => (b m).step m o) t by
    obtain ⟨t, h1, h2, h3⟩ := hsuff
    refine ⟨t, h1, h2, h3, fun nm hk => ?_⟩
    have hlogs : Logs nm o := by
      cases o with
      | watchActivation d => exact ho.elim
      | setup kw => exact ho
      | watch sel => exact ho
      | analysis o => exact ho
      | finalize d => exact ho
      | clear => exact ho
      | _ => trivial
    exact (run_step (Q := fun _ => True) hF.stats.1 hF.stats.2.1 hF.stats.2.2 o hlogs (by cases o <;> trivial) (hi nm hk) hU h1).1
  obtain ⟨nm0, hnm0⟩ := List.exists_mem_of_ne_nil keys hF.nonempty
  have hopt := (hi nm0 hnm0).hopt
  have nil_user : ∀ {t : Sess K}, t.user = s.user → allocs [o] = [] → t.user = s.user ++ allocs [o] := by
    intro t h1 h2
    rw [h2, List.append_nil, h1]
  cases o with
  | alloc a => exact ⟨_, rfl, rfl, h.rest ho hm rfl rfl rfl (Shapes.refl s) (h.stat.congr rfl) (h.log.mono (Shapes.refl s) rfl)⟩
  | forward m x y =>
    obtain ⟨t, h1, h2, h3⟩ := forward_returns hF h hi m x y ho
    exact ⟨t, h1, nil_user h2 rfl, h3⟩
  | gradAt y g =>
    obtain ⟨t, h1, h2, h3⟩ := gradAt_returns hF h hi y g ho
    exact ⟨t, h1, nil_user h2 rfl, h3⟩
  | backward y g =>
    obtain ⟨t, h1, h2, h3⟩ := backward_returns hF h hi y g ho
    exact ⟨t, h1, nil_user h2 rfl, h3⟩
  | watchActivation d => exact ho.elim
  | call ids mask sv =>
    exact ⟨_, rfl, nil_user rfl rfl, h.next ho hm rfl (nil_user rfl rfl) h.names h.tens h.calls ⟨rfl, rfl, rfl⟩ rfl (h.stat.congr rfl) (h.buf.mono (Shapes.refl s) rfl)
      (LogFine.empty rfl)⟩
  | enter =>
    obtain ⟨t, h1, h2, h3, h4⟩ := open_returns (hi nm0 hnm0).handles h.watched
    have hu : t.user = s.user := by
      have h' := congrArg Sess.user h2
      exact h'
    have hsh : Shapes s t := by
      have h' := congrArg Sess.own h2
      exact Shapes.of_eq h'
    refine ⟨t, h1, nil_user hu rfl, h.next ho hm h1 (nil_user hu rfl) h3 (by rw [h4]; nofun) ?_ ⟨?_, ?_, ?_⟩ ?_ (h.stat.congr ?_) (h.buf.mono hsh ?_) (h.log.mono hsh ?_)⟩
    · have h' := congrArg Sess.calls h2
      rw [show t.calls = s.calls from h']
      exact h.calls
    · have h' := congrArg Sess.modules h2
      exact h'
    · have h' := congrArg Sess.names h2
      exact h'
    · have h' := congrArg Sess.paths h2
      exact h'
    · have h' := congrArg Sess.dataId h2
      rw [show t.dataId = s.dataId from h']
      exact h.data
    · have h' := congrArg Sess.st h2
      exact h'
    · have h' := congrArg Sess.buffer h2
      exact h'
    · have h' := congrArg Sess.log h2
      exact h'
  | exit =>
    refine ends_returns hF h hi (s.saveBatch || s.save) rfl rfl rfl ho hm fun hs => ho ?_
    obtain ⟨-, a2, a3⟩ := h.agrees
    rw [a2, a3] at hs
    exact hs
  | start ids mask =>
    obtain ⟨t, h1, h2, h3, h4⟩ := open_returns (s := s.setBatch ids mask) ((hi nm0 hnm0).handles.congr rfl) h.watched
    have hu : t.user = s.user := by
      have h' := congrArg Sess.user h2
      exact h'
    have hsh : Shapes s t := by
      have h' := congrArg Sess.own h2
      exact Shapes.of_eq h'
    refine ⟨t, h1, nil_user hu rfl, h.next ho hm h1 (nil_user hu rfl) h3 (by rw [h4]; nofun) ?_ ⟨?_, ?_, ?_⟩ ?_ (h.stat.congr ?_) (h.buf.mono hsh ?_) (LogFine.empty ?_)⟩
    · have h' := congrArg Sess.calls h2
      rw [show t.calls = s.calls from h']
      exact h.calls
    · have h' := congrArg Sess.modules h2
      exact h'
    · have h' := congrArg Sess.names h2
      exact h'
    · have h' := congrArg Sess.paths h2
      exact h'
    · have h' := congrArg Sess.dataId h2
      rw [show t.dataId = some ids from h']
      rfl
    · have h' := congrArg Sess.st h2
      exact h'
    · have h' := congrArg Sess.buffer h2
      exact h'
    · have h' := congrArg Sess.log h2
      exact h'
  | «end» sv =>
    refine ends_returns hF h hi (sv || s.save) rfl rfl rfl ho hm fun hs => ho ?_
    obtain ⟨-, a2, a3⟩ := h.agrees
    rw [a3] at hs
    exact hs
  | log ids mask =>
    obtain ⟨st, t, e1, e2, e3, e4⟩ := update_returns (E := E) (n := 0) (s := s.setBatch ids mask) hF hopt (h.stat.congr rfl) (LogFine.empty rfl)
      (h.buf.mono (Shapes.refl s) rfl) h.paths false (nofun) hm
    have hso : ({ t with saver := s.saver, buffer := s.buffer, bufferSize := s.bufferSize, fs := s.fs } : Sess K) = { s.setBatch ids mask with st := st } := e2
    have hu : t.user = s.user := by
      have h' := congrArg Sess.user hso
      exact h'
    refine ⟨t, e1, nil_user hu rfl, h.next ho hm e1 (nil_user hu rfl) ?_ ?_ ?_ ⟨?_, ?_, ?_⟩ ?_ e3 e4 (LogFine.empty ?_)⟩
    · have h' := congrArg (fun u : Sess K => u.pre ++ u.bwd ++ u.fwd) hso
      rw [show t.pre ++ t.bwd ++ t.fwd = s.pre ++ s.bwd ++ s.fwd from h']
      exact h.names
    · have h' := congrArg Sess.tens hso
      rw [show t.tens = s.tens from h']
      exact h.tens
    · have h' := congrArg Sess.calls hso
      rw [show t.calls = s.calls from h']
      exact h.calls
    · have h' := congrArg Sess.modules hso
      exact h'
    · have h' := congrArg Sess.names hso
      exact h'
    · have h' := congrArg Sess.paths hso
      exact h'
    · have h' := congrArg Sess.dataId hso
      rw [show t.dataId = some ids from h']
      rfl
    · have h' := congrArg Sess.log hso
      exact h'
  | save e => exact ⟨_, rfl, nil_user rfl rfl, h.rest ho hm rfl (nil_user rfl rfl) rfl (Shapes.refl s) (h.stat.congr rfl) (h.log.mono (Shapes.refl s) rfl)⟩
  | eval => exact ⟨_, rfl, nil_user rfl rfl, h.rest ho hm rfl (nil_user rfl rfl) rfl (Shapes.refl s) (h.stat.congr rfl) (h.log.mono (Shapes.refl s) rfl)⟩
  | setup kw => exact ho.elim
  | watch sel => exact ho.elim
  | analysis o => exact ho.elim
  | getLogCopy =>
    obtain ⟨r, hr⟩ := getLogCopy_returns h.log
    obtain ⟨l, hl⟩ := getLogCopy_makes s
    have hrun : (shift k .getLogCopy).run E s = (s.getLogCopy.1, none) := by
      show (s.getLogCopy.1, match s.getLogCopy.2 with | .ok _ => none | .error e => some e) = _
      rw [hr]
    refine ⟨_, hrun, nil_user (by rw [hl]) rfl, h.rest ho hm hrun (nil_user (by rw [hl]) rfl) (by rw [hl]; rfl) (Shapes.of_append (l := l) (by rw [hl])) (h.stat.congr (by rw [hl])) ?_⟩
    exact h.log.mono (Shapes.of_append (l := l) (by rw [hl])) (by rw [hl])
  | finalize dir => exact ho.elim
  | clear => exact ho.elim

/-- So does the whole program. -/
theorem program_returns (body : List (SOp K)) : ∀ (tensors : List (TObj K)) (f : Saving) (b : Nat → Book K) (s : Sess K), Tame E opt Q keys mods lay k tensors f b s →
    (∀ nm ∈ keys, Ins E opt U (mods nm) k nm (b (mods nm)) s) → ProgramFits E opt keys mods lay tensors f b body → (∀ o ∈ body, Masks Q o) →
    s.user ++ allocs body = U →
    ∃ t, SAct.each (SOp.run E) (body.map (shift k)) s = (t, none) ∧ Stat E lay opt Q t ∧ BufOk lay keys t ∧ t.paths = gradOrder keys := by
  induction body with
  | nil => exact fun _ _ _ s h _ _ _ _ => ⟨s, rfl, h.stat, h.buf, h.paths⟩
  | cons o body ih =>
    intro tensors f b s h hi hp hm hU
    have ha : allocs (o :: body) = allocs [o] ++ allocs body := by simp [allocs]
    rw [ha, ← List.append_assoc] at hU
    obtain ⟨u, h1, h2, h3, h4⟩ := op_returns hF o h hi hp.1 (hm o List.mem_cons_self) ⟨_, hU⟩
    obtain ⟨t, h5, h6⟩ := ih _ _ _ u h3 h4 hp.2 (fun o h => hm o (List.mem_cons_of_mem _ h)) (by rw [h2]; exact hU)
    refine ⟨t, ?_, h6⟩
    rw [List.map_cons, show SAct.each (SOp.run E) (shift k o :: body.map (shift k)) = ((shift k o).run E).seq (SAct.each (SOp.run E) (body.map (shift k))) from rfl,
      SAct.seq_eq h1]
    exact h5

end
end Logix
