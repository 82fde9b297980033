/-
A logging session with tensors that fit together: the gradients that arrive, the batch log and the save buffer.
-/
import Verif.Lemmas.SessionReturns
import Verif.Lemmas.SessionSave

set_option linter.unusedSectionVars false

namespace Logix
open Spec Sess
variable {K : Type}

/-- The tensors of LogIX keep their shapes and devices. -/
def Shapes (s t : Sess K) : Prop := ∀ (j : Nat) (o : TObj K), s.own[j]? = some o → ∃ o' : TObj K, t.own[j]? = some o' ∧
  o'.val.shape = o.val.shape ∧ o'.val.dev = o.val.dev ∧ o'.leaf = o.leaf

theorem Shapes.refl (s : Sess K) : Shapes s s := fun _ o h => ⟨o, h, rfl, rfl, rfl⟩
theorem Shapes.trans {a b c : Sess K} (h : Shapes a b) (h' : Shapes b c) : Shapes a c := by
  intro j o ho
  obtain ⟨o1, h1, h2, h3, h4⟩ := h j o ho
  obtain ⟨o2, g1, g2, g3, g4⟩ := h' j o1 h1
  exact ⟨o2, g1, g2.trans h2, g3.trans h3, g4.trans h4⟩
theorem Shapes.of_append {s t : Sess K} {l : List (TObj K)} (h : t.own = s.own ++ l) : Shapes s t := by
  intro j o ho
  refine ⟨o, ?_, rfl, rfl, rfl⟩
  rw [h, List.getElem?_append_left (List.getElem?_eq_some_iff.1 ho).1]
  exact ho
theorem Shapes.of_eq {s t : Sess K} (h : t.own = s.own) : Shapes s t := Shapes.of_append (l := []) (by rw [h, List.append_nil])

/-- Every entry of the batch log is a gradient of the shape of its module, with `n` rows. -/
def LogFine (lay : Layout) (keys : List PyStr) (n : Nat) (s : Sess K) : Prop :=
  ∀ e ∈ s.log, e.1 ∈ keys ∧ 0 < n ∧ ∃ j o, e.2 = [(LogType.name .grad, .own j)] ∧ s.own[j]? = some o ∧ o.leaf = true ∧
    o.val.shape = [n, lay.rows e.1, lay.cols e.1] ∧ o.val.dev = lay.dev e.1

/-- A buffered value with this shape. -/
def ValOk (s : Sess K) (sh : List Nat) : BVal K → Prop
  | .copy _ t => t.shape = sh
  | .view r _ => ∃ j o n, r = .own j ∧ s.own[j]? = some o ∧ o.val.shape = n :: sh

/-- The buffered log of one sample has a gradient of the shape of the module. -/
def HasGrad (lay : Layout) (s : Sess K) (nm : PyStr) (x : Option (Dict PyStr (BVal K))) : Prop :=
  ∃ tys v, x = some tys ∧ Dict.get? tys (LogType.name .grad) = some v ∧ ValOk s [lay.rows nm, lay.cols nm] v

/-- Every sample in the buffer has the gradients of all modules. -/
def BufOk (lay : Layout) (keys : List PyStr) (s : Sess K) : Prop := ∀ e ∈ s.buffer, ∀ nm ∈ keys, HasGrad lay s nm (Dict.get? e.2 nm)

theorem LogFine.mono {lay : Layout} {keys : List PyStr} {n : Nat} {s t : Sess K} (h : LogFine lay keys n s) (hs : Shapes s t) (hl : t.log = s.log) :
    LogFine lay keys n t := by
  intro e he
  rw [hl] at he
  obtain ⟨h1, h2, j, o, h3, h4, h5, h6, h7⟩ := h e he
  obtain ⟨o', g1, g2, g3, g4⟩ := hs j o h4
  exact ⟨h1, h2, j, o', h3, g1, g4.trans h5, g2.trans h6, g3.trans h7⟩

theorem ValOk.mono {s t : Sess K} {sh : List Nat} {v : BVal K} (h : ValOk s sh v) (hs : Shapes s t) : ValOk t sh v := by
  cases v with
  | copy d x => exact h
  | view r i =>
    obtain ⟨j, o, n, h1, h2, h3⟩ := h
    obtain ⟨o', g1, g2, -⟩ := hs j o h2
    exact ⟨j, o', n, h1, g1, g2.trans h3⟩

theorem HasGrad.mono {lay : Layout} {s t : Sess K} {nm : PyStr} {x : Option (Dict PyStr (BVal K))} (h : HasGrad lay s nm x) (hs : Shapes s t) :
    HasGrad lay t nm x := by
  obtain ⟨tys, v, h1, h2, h3⟩ := h
  exact ⟨tys, v, h1, h2, h3.mono hs⟩

theorem BufOk.mono {lay : Layout} {keys : List PyStr} {s t : Sess K} (h : BufOk lay keys s) (hs : Shapes s t) (hb : t.buffer = s.buffer) : BufOk lay keys t := by
  intro e he nm hm
  rw [hb] at he
  exact (h e he nm hm).mono hs

section
variable [Field K] {E : SEnv K} {lay : Layout} {keys : List PyStr} {nm : PyStr} {n : Nat} {opt : LogOption} {Q : Option (Tensor K) → Prop}

/-! ### Gradients arrive -/

theorem setVal_shapes {s : Sess K} {j : Nat} {a : TObj K} {v : Tensor K} (ha : s.own[j]? = some a) (hs : v.shape = a.val.shape) (hd : v.dev = a.val.dev) :
    Shapes s (s.setVal (.own j) v) := by
  intro i o ho
  show ∃ o', (s.own.modify j fun o => { o with val := v })[i]? = some o' ∧ _
  rw [List.getElem?_modify]
  by_cases hij : j = i
  · subst hij
    rw [ha] at ho
    obtain rfl := Option.some.inj ho
    rw [ha]
    exact ⟨{ a with val := v }, by simp, hs, hd, rfl⟩
  · rw [ho]
    exact ⟨o, by simp [hij], rfl, rfl, rfl⟩

theorem logUpdate_returns {s : Sess K} (hl : LogFine lay keys n s) (hk : nm ∈ keys) (hn : 0 < n) {j : Nat} {o : TObj K} (ho : s.own[j]? = some o)
    (hleaf : o.leaf = true) (hs : o.val.shape = [n, lay.rows nm, lay.cols nm]) (hd : o.val.dev = lay.dev nm) :
    ∃ t, logUpdate nm (LogType.name .grad) (.own j) s = (t, none) ∧ LogFine lay keys n t ∧ Shapes s t ∧ t.user = s.user ∧ t.st = s.st := by
  unfold logUpdate
  dsimp only
  cases hg : Dict.get? s.log nm with
  | none =>
    refine ⟨_, rfl, ?_, Shapes.refl _, rfl, rfl⟩
    intro e he
    rcases mem_set he with he | ⟨h1, h2⟩
    · exact hl e he
    · obtain ⟨e1, e2⟩ := e
      dsimp only at h1 h2
      subst h1
      exact ⟨hk, hn, j, o, h2, ho, hleaf, hs, hd⟩
  | some tys =>
    obtain ⟨h1, -, j0, a, h2, h3, h4, h5, h6⟩ := hl (nm, tys) (mem_of_get? hg)
    dsimp only at h2 h5 h6
    subst h2
    have hget : Dict.get? ((some [(LogType.name .grad, TRef.own j0)]).getD []) (LogType.name .grad) = some (TRef.own j0) := by
      simp [Dict.get?_cons]
    rw [hget]
    have o1 : s.obj (.own j0) = some a := h3
    have o2 : s.obj (.own j) = some o := ho
    simp only [o1, o2]
    have hadd : a.val.add_ o.val = .ok (Tensor.ofFn a.val.dev a.val.shape fun idx => a.val.el idx + o.val.el idx) := by
      unfold Tensor.add_
      rw [if_pos ⟨h6.trans hd.symm, h5.trans hs.symm⟩]
    rw [hadd]
    have hsh := setVal_shapes (s := s) (v := Tensor.ofFn a.val.dev a.val.shape fun idx => a.val.el idx + o.val.el idx) h3 rfl rfl
    exact ⟨_, rfl, hl.mono hsh rfl, hsh, rfl, rfl⟩

theorem gradBackwardHook_returns {s : Sess K} (mod x g : Nat) {a b : TObj K} (hl : LogFine lay keys n s) (hst : Stat E lay opt Q s) (hk : nm ∈ keys) (hn : 0 < n)
    (hx : s.user[x]? = some a) (hg : s.user[g]? = some b) (hi : ∃ n', IsInput lay nm n' a.val (E.kind mod))
    (ho : IsOutGrad lay nm n a.val b.val (E.kind mod)) (hr : 0 < lay.rows nm) (hopt : s.opt.grad = [] ∨ s.opt.grad.head? = some .log) :
    ∃ t, Sess.gradBackwardHook E mod x g nm s = (t, none) ∧ LogFine lay keys n t ∧ Stat E lay opt Q t ∧ Shapes s t ∧ t.user = s.user := by
  unfold Sess.gradBackwardHook gradHookCheck
  cases hgr : s.opt.grad with
  | nil => exact ⟨s, rfl, hl, hst, Shapes.refl s, rfl⟩
  | cons p ps =>
    rw [hgr] at hopt
    obtain rfl : p = .log := by
      rcases hopt with h | h
      · cases h
      · exact Option.some.inj h
    obtain ⟨v, e1, e2, e3⟩ := isOutGrad_gradient hi ho hn hr
    have o1 : s.obj (.user x) = some a := hx
    have o2 : s.obj (.user g) = some b := hg
    simp only [if_true, o1, o2, e1]
    generalize hs1 : s.alloc ⟨v, b.dtype, false, true⟩ = w
    obtain ⟨s1, r1⟩ := w
    simp only [Sess.alloc, Prod.mk.injEq] at hs1
    obtain ⟨hs1, hr1⟩ := hs1
    have hobj : s1.obj r1 = some ⟨v, b.dtype, false, true⟩ := by
      rw [← hs1, ← hr1]
      exact List.getElem?_concat_length ..
    obtain ⟨j, o', hj, hj1, hj2, hj3, l, hj4⟩ : ∃ j o', (s1.convert E r1).2 = .own j ∧ (s1.convert E r1).1.own[j]? = some o' ∧ o'.val = v ∧ o'.leaf = true ∧
        ∃ l, (s1.convert E r1).1.own = s.own ++ l := by
      unfold convert
      rw [hobj]
      cases E.dtype with
      | none => exact ⟨_, _, hr1.symm, by rw [← hr1] at hobj; exact hobj, rfl, rfl, _, by rw [← hs1]⟩
      | some d =>
        dsimp only
        split
        · exact ⟨_, _, hr1.symm, by rw [← hr1] at hobj; exact hobj, rfl, rfl, _, by rw [← hs1]⟩
        · refine ⟨_, _, rfl, List.getElem?_concat_length .., rfl, rfl, [⟨v, b.dtype, false, true⟩, ⟨v, d, false, true⟩], ?_⟩
          rw [← hs1]
          simp [Sess.alloc]
    have hstill := (show Still s s1 by rw [← hs1]; exact alloc_still s ⟨v, b.dtype, false, true⟩).trans (convert_still E s1 r1)
    have hopt2 : (s1.convert E r1).1.opt.grad = .log :: ps := by rw [opt_of_quiet hstill.1, hgr]
    have hst2 : Stat E lay opt Q (s1.convert E r1).1 := convert_stat (hst.congr (by rw [← hs1])) r1
    have hsh := Shapes.of_append hj4
    obtain ⟨t, f1, f2, f3, f4, f5⟩ := logUpdate_returns (hl.mono hsh hstill.2.2.1) hk hn hj1 hj3 (by rw [hj2]; exact e2) (by rw [hj2]; exact e3)
    refine ⟨t, ?_, f2, hst2.congr f5, hsh.trans f3, f4.trans hstill.2.1⟩
    rw [hopt2, hj]
    show SAct.each _ [Plugin.log] _ = _
    exact SAct.seq_eq (f := plugin E (some (E.kind mod)) nm .grad (TRef.own j) .log) (g := SAct.each (plugin E (some (E.kind mod)) nm .grad (TRef.own j)) []) f1

/-! ### The end of a batch -/

theorem gradStat_returns {s : Sess K} (hl : LogFine lay keys n s) (hst : Stat E lay opt Q s) (p : Plugin) (hp : p = .mean ∨ p = .covariance) (hk : nm ∈ Dict.keys s.log)
    (hpo : p ∈ opt.grad.tail) (hQ : Q s.mask) :
    ∃ st, Sess.gradStat E p nm s = ({ s with st := st }, none) ∧ Stat E lay opt Q { s with st := st } := by
  obtain ⟨tys, hg⟩ : ∃ tys, Dict.get? s.log nm = some tys :=
    Option.isSome_iff_exists.1 ((Dict.get?_isSome_iff _ _).2 hk)
  obtain ⟨h1, h0, j, a, h2, h3, h4, h5, h6⟩ := hl (nm, tys) (mem_of_get? hg)
  dsimp only at h2 h5 h6
  obtain ⟨st, f1, f2⟩ := plugins_return (E := E) (lay := lay) (mod := none) (ty := .grad) (r := .own j) (o := a) (nm := nm) (fits_gradient h0 h5 h6) [p] s hst h3
    (by intro q hq; rw [List.mem_singleton.1 hq]; exact ⟨hp, hpo⟩) hQ
  refine ⟨st, ?_, f2⟩
  have h7 : (Dict.get? s.log nm).bind (fun tys => Dict.get? tys (LogType.name .grad)) = some (.own j) := by
    rw [hg, h2]
    simp [Dict.get?_cons]
  unfold Sess.gradStat
  rw [h7]
  obtain ⟨u, g1, g2⟩ := SAct.seq_none (f := plugin E none nm .grad (.own j) p) (g := SAct.each _ []) f1
  cases g2
  exact g1

theorem gradStats_return {s : Sess K} (hl : LogFine lay keys n s) (hst : Stat E lay opt Q s) (ps : List Plugin) (hp : ∀ p ∈ ps, p = .mean ∨ p = .covariance)
    (hpo : ∀ p ∈ ps, p ∈ opt.grad.tail) (hQ : Q s.mask) :
    ∃ st, gradStats E ps s = ({ s with st := st }, none) ∧ Stat E lay opt Q { s with st := st } := by
  have key := each_returns (f := fun p s => SAct.each (Sess.gradStat E p) (Dict.keys s.log) s) (P := fun u => ∃ st, u = { s with st := st } ∧ Stat E lay opt Q u) ps (by
    rintro p hpm _ ⟨st, rfl, h1⟩
    have := each_returns (f := Sess.gradStat E p) (P := fun u => ∃ st, u = { s with st := st } ∧ Stat E lay opt Q u) (Dict.keys s.log) (by
      rintro name hname _ ⟨st, rfl, h1⟩
      obtain ⟨st', g1, g2⟩ := gradStat_returns (s := { s with st := st }) (nm := name) (hl.mono (Shapes.refl s) rfl) h1 p (hp p hpm) hname (hpo p hpm) hQ
      exact ⟨_, g1, st', rfl, g2⟩) { s with st := st } ⟨st, rfl, h1⟩
    exact this) s ⟨s.st, rfl, hst⟩
  obtain ⟨t, h1, st, rfl, h2⟩ := key
  exact ⟨st, h1, h2⟩

/-! ### Saving -/

theorem addModules_returns (s : Sess K) (idx : Nat) (hidx : idx < n) (l : List (PyStr × Dict PyStr TRef)) :
    ∀ (buf : Dict PyStr (Dict PyStr (BVal K))) (c : Nat), (∀ e ∈ l, ∃ j o, e.2 = [(LogType.name .grad, TRef.own j)] ∧ s.own[j]? = some o ∧
        o.val.shape = [n, lay.rows e.1, lay.cols e.1]) →
      (addModules s idx l (buf, c)).2 = none ∧ ∀ nm, HasGrad lay s nm (Dict.get? buf nm) ∨ nm ∈ l.map Prod.fst →
        HasGrad lay s nm (Dict.get? (addModules s idx l (buf, c)).1.1 nm) := by
  induction l with
  | nil =>
    intro buf c _
    refine ⟨rfl, fun nm h => ?_⟩
    rcases h with h | h
    · exact h
    · cases h
  | cons e l ih =>
    intro buf c hl
    obtain ⟨k, m⟩ := e
    obtain ⟨j, o, h1, h2, h3⟩ := hl (k, m) (List.mem_cons_self ..)
    dsimp only at h1 h3
    subst h1
    have hrow : ∃ t, rowOf o.val idx = .ok t ∧ t.shape = [lay.rows k, lay.cols k] := by
      unfold rowOf
      rw [h3]
      dsimp only
      rw [if_pos hidx]
      exact ⟨_, rfl, rfl⟩
    obtain ⟨t, h4, h5⟩ := hrow
    obtain ⟨v, sz, h6, h7⟩ : ∃ v sz, s.bufferVal (.own j) idx = .ok (v, sz) ∧ ValOk s [lay.rows k, lay.cols k] v := by
      unfold bufferVal
      rw [show s.obj (.own j) = some o from h2]
      dsimp only
      rw [h4]
      dsimp only
      refine ⟨_, _, rfl, ?_⟩
      split
      · exact ⟨j, o, n, rfl, h2, h3⟩
      · exact h5
    have h8 : addTypes s idx [(LogType.name .grad, TRef.own j)] ((Dict.get? buf k).getD [], c) =
        ((Dict.set ((Dict.get? buf k).getD []) (LogType.name .grad) v, c + sz), none) := by
      unfold addTypes
      rw [h6]
      rfl
    unfold addModules
    rw [h8]
    dsimp only
    obtain ⟨g1, g2⟩ := ih (Dict.set buf k (Dict.set ((Dict.get? buf k).getD []) (LogType.name .grad) v)) (c + sz)
      fun e he => hl e (List.mem_cons_of_mem _ he)
    refine ⟨g1, fun nm h => g2 nm ?_⟩
    rw [Dict.get?_set]
    by_cases hk : k = nm
    · subst hk
      rw [if_pos rfl]
      exact .inl ⟨_, v, rfl, Dict.get?_set_self .., h7⟩
    · rw [if_neg hk]
      rcases h with h | h
      · exact .inl h
      · rcases List.mem_cons.1 h with h | h
        · exact absurd h.symm hk
        · exact .inr h

theorem bufferWriteFrom_returns (ids : List PyStr) : ∀ (idx : Nat) (s : Sess K), idx + ids.length ≤ n → LogFine lay keys n s → BufOk lay keys s →
    (∀ nm ∈ keys, nm ∈ Dict.keys s.log) →
    ∃ buf c, bufferWriteFrom idx ids s = ({ s with buffer := buf, bufferSize := c }, none) ∧ BufOk lay keys { s with buffer := buf, bufferSize := c } := by
  induction ids with
  | nil => exact fun idx s _ _ hb _ => ⟨s.buffer, s.bufferSize, rfl, hb⟩
  | cons d ids ih =>
    intro idx s hle hl hb hk
    rw [List.length_cons] at hle
    obtain ⟨h1, h2⟩ := addModules_returns (lay := lay) s idx (by omega : idx < n) s.log ((Dict.get? s.buffer d).getD []) s.bufferSize (by
      intro e he
      obtain ⟨-, -, j, o, g1, g2, -, g3, -⟩ := hl e he
      exact ⟨j, o, g1, g2, g3⟩)
    generalize hr : addModules s idx s.log ((Dict.get? s.buffer d).getD [], s.bufferSize) = r at h1 h2
    have hb' : BufOk lay keys { s with buffer := Dict.set s.buffer d r.1.1, bufferSize := r.1.2 } := by
      intro e he nm hm
      rcases mem_set (show (e.1, e.2) ∈ Dict.set s.buffer d r.1.1 from he) with he | ⟨-, he⟩
      · exact hb e he nm hm
      · rw [he]
        exact h2 nm (.inr (hk nm hm))
    obtain ⟨buf, c, h3, h4⟩ := ih (idx + 1) { s with buffer := Dict.set s.buffer d r.1.1, bufferSize := r.1.2 } (by omega) (hl.mono (Shapes.refl s) rfl) hb' hk
    refine ⟨buf, c, ?_, h4⟩
    unfold bufferWriteFrom
    dsimp only
    rw [hr, h1]
    exact h3

theorem readVal_shape {s : Sess K} {sh : List Nat} {v : BVal K} (h : ValOk s sh v) : (s.readVal E v).shape = sh := by
  cases v with
  | copy d t => exact h
  | view r i =>
    obtain ⟨j, o, n, rfl, h2, h3⟩ := h
    have hob : s.obj (.own j) = some o := h2
    have e : s.readVal E (.view (.own j) i) = toArr E o.dtype (Tensor.ofFn o.val.dev o.val.shape.tail fun k => o.val.el (i :: k)) := by
      simp only [readVal, hob]
    rw [e]
    show o.val.shape.tail = sh
    rw [h3]
    rfl

theorem hasGrad_lookup {s : Sess K} {b : Dict PyStr (Dict PyStr (BVal K))} (h : HasGrad lay s nm (Dict.get? b nm)) :
    ∃ a, (Nested.node (readMods E s b)).lookup [nm, LogType.name .grad] = some a ∧ a.shape = [lay.rows nm, lay.cols nm] := by
  obtain ⟨tys, v, h1, h2, h3⟩ := h
  refine ⟨s.readVal E v, ?_, readVal_shape h3⟩
  have e1 : Dict.get? (readMods E s b) nm = some (.node (readTypes E s tys)) := by
    unfold readMods
    rw [Sess.Dict.get?_map' b (fun x => Nested.node (readTypes E s x)), h1]
    rfl
  have e2 : Dict.get? (readTypes E s tys) (LogType.name .grad) = some (.leaf (s.readVal E v)) := by
    unfold readTypes
    rw [Sess.Dict.get?_map' tys (fun x => Nested.leaf (s.readVal E x)), h2]
    rfl
  simp [Nested.lookup, e1, e2]

theorem flushSerialized_returns {s : Sess K} (hb : BufOk lay keys s) (hne : keys ≠ []) (hnd : keys.Nodup) (hpos : ∀ nm ∈ keys, 0 < lay.rows nm ∧ 0 < lay.cols nm)
    (fs : FS) : ∃ fs' sv, (s.valueSaver E).flushSerialized (gradOrder keys) fs = (fs', sv, .ok ()) := by
  have hord : (gradOrder keys).Nodup := hnd.map fun a b h => by simpa using h
  have hone : gradOrder keys ≠ [] := by
    cases keys with
    | nil => exact absurd rfl hne
    | cons a l => nofun
  unfold Saver.flushSerialized
  split
  · exact ⟨_, _, rfl⟩
  · next hemp =>
    have hitems : ∀ e ∈ (s.valueSaver E).items, ∀ nm ∈ keys, ∃ a, e.2.lookup [nm, LogType.name .grad] = some a ∧ a.shape = [lay.rows nm, lay.cols nm] := by
      intro e he nm hm
      obtain ⟨e1, h1, rfl⟩ := List.mem_map.1 he
      obtain ⟨e2, h2, rfl⟩ := List.mem_map.1 (show e1 ∈ s.buffer.map fun e => (e.1, readMods E s e.2) from h1)
      exact hasGrad_lookup (hb e2 h2 nm hm)
    have hall : ∀ e ∈ (s.valueSaver E).items, HasAll (gradOrder keys) e.2 := by
      intro e he p hp
      obtain ⟨nm, hm, rfl⟩ := List.mem_map.1 hp
      obtain ⟨a, h1, h2⟩ := hitems e he nm hm
      exact ⟨a, h1, by rw [h2]; nofun⟩
    have htot : totalSize (s.valueSaver E).items ≠ 0 := by
      refine totalSize_ne_zero hord ?_
      cases hbuf : (s.valueSaver E).buffer with
      | nil => rw [hbuf] at hemp; exact absurd rfl hemp
      | cons x xs =>
        obtain ⟨nm, hm⟩ := List.exists_mem_of_ne_nil keys hne
        have hmem : (x.1, Nested.node x.2) ∈ (s.valueSaver E).items := by simp [Saver.items, hbuf]
        obtain ⟨a, h1, h2⟩ := hitems _ hmem nm hm
        refine ⟨_, hmem, _, List.mem_map.2 ⟨nm, hm, rfl⟩, a, h1, fun e => ?_⟩
        have hw := a.wf
        rw [e, h2] at hw
        have hi : a.dtype.itemsize ≠ 0 := by cases a.dtype <;> simp [DType.itemsize]
        obtain ⟨p1, p2⟩ := hpos nm hm
        have : numel [lay.rows nm, lay.cols nm] ≠ 0 := by
          simp [numel]
          omega
        exact Nat.mul_ne_zero this hi hw.symm
    obtain ⟨h1, -⟩ := writeChunk_ok fs (s.valueSaver E).rank (s.valueSaver E).flushCount _ (gradOrder keys) hord hone hall htot
    dsimp only
    rw [h1]
    exact ⟨_, _, rfl⟩

theorem withSaver_returns {s : Sess K} {f : List Path → FS → Saver → FS × Saver × Py Unit} (hb : BufOk lay keys s)
    (h : ∃ fs' sv, f s.paths s.fs (s.valueSaver E) = (fs', sv, .ok ())) :
    ∃ t, withSaver E f s = (t, none) ∧ BufOk lay keys t := by
  obtain ⟨fs', sv, h⟩ := h
  unfold withSaver
  rw [h]
  refine ⟨_, rfl, ?_⟩
  intro e he nm hm
  dsimp only at he
  split at he
  · cases he
  · exact hb e he nm hm

theorem saveLog_returns {s : Sess K} {ids : List PyStr} (hid : s.dataId = some ids) (hl : LogFine lay keys ids.length s) (hb : BufOk lay keys s)
    (hk : ∀ nm ∈ keys, nm ∈ Dict.keys s.log) (hp : s.paths = gradOrder keys) (hne : keys ≠ []) (hnd : keys.Nodup)
    (hpos : ∀ nm ∈ keys, 0 < lay.rows nm ∧ 0 < lay.cols nm) : ∃ t, Sess.saveLog E s = (t, none) ∧ BufOk lay keys t := by
  obtain ⟨buf, c, h1, h2⟩ := bufferWriteFrom_returns ids 0 s (by omega) hl hb hk
  have h3 : bufferWrite s = ({ s with buffer := buf, bufferSize := c }, none) := by
    have e : bufferWrite s = bufferWriteFrom 0 ids s := by
      unfold bufferWrite
      rw [hid]
    rw [e]
    exact h1
  unfold Sess.saveLog
  rw [SAct.seq_eq h3]
  refine withSaver_returns h2 ?_
  unfold Saver.flush
  split
  · split
    · exact ⟨_, _, rfl⟩
    · rw [show ({ s with buffer := buf, bufferSize := c } : Sess K).paths = gradOrder keys from hp]
      exact flushSerialized_returns h2 hne hnd hpos _
  · exact ⟨_, _, rfl⟩

/-! ### Copies of the log -/

theorem getLogCopy_returns {s : Sess K} (hl : LogFine lay keys n s) : ∃ r, s.getLogCopy.2 = .ok r := by
  have key : ∀ (l : List (PyStr × Dict PyStr TRef)) (u : Sess K), (∀ e ∈ l, ∃ j o, e.2 = [(LogType.name .grad, TRef.own j)] ∧ s.own[j]? = some o ∧ o.leaf = true) →
      ∃ u' d, copyLog s l u = (u', .ok d) := by
    intro l
    induction l with
    | nil => exact fun u _ => ⟨u, [], rfl⟩
    | cons e l ih =>
      intro u h
      obtain ⟨k, m⟩ := e
      obtain ⟨j, o, h1, h2, h3⟩ := h (k, m) (List.mem_cons_self ..)
      dsimp only at h1
      subst h1
      have hc : copyTensor s u (.own j) = ((u.alloc o).1, .ok (u.alloc o).2) := by
        unfold copyTensor
        rw [show s.obj (.own j) = some o from h2]
        exact if_pos h3
      obtain ⟨u', d, h4⟩ := ih (u.alloc o).1 fun e he => h e (List.mem_cons_of_mem _ he)
      unfold copyLog
      simp only [copyTypes, hc, h4]
      exact ⟨_, _, rfl⟩
  obtain ⟨u', d, h⟩ := key s.log s fun e he => by
    obtain ⟨-, -, j, o, h1, h2, h3, -⟩ := hl e he
    exact ⟨j, o, h1, h2, h3⟩
  unfold getLogCopy
  rw [h]
  exact ⟨_, rfl⟩

end
end Logix
