/-
C02, C03, C04, C06, C07, C08, C12 (saver part), C13 and C77: logging sessions.
-/
import Verif.Lemmas.Elements
import Mathlib.Data.List.Nodup

namespace Logix
open Spec

/-! ### helpers -/

theorem Inv.chunk_ne_nil {order : List Path} {n : Nat} {old : Nat → List Chunk} {fs : FS} {ss : Nat → Saver}
    {chunks : Nat → List Chunk} (h : Inv order n old fs ss chunks) (r : Nat) : ∀ es ∈ disk (old r) (chunks r), es ≠ [] := by
  intro es hes e
  obtain ⟨k, hk, hke⟩ := List.getElem_of_mem hes
  have := (h.onDisk r k es (by rw [List.getElem?_eq_getElem hk, hke])).nonempty
  subst e
  simp [chunkData, totalSize] at this

theorem chunks_eq_nil {cs : List Chunk} (hne : ∀ es ∈ cs, es ≠ []) (h : views cs.flatten = []) : cs = [] := by
  cases cs with
  | nil => rfl
  | cons a cs =>
    simp only [views, List.map_eq_nil_iff, List.flatten_cons, List.append_eq_nil_iff] at h
    exact absurd h.1 (hne a (by simp))

theorem runCluster_of_session (order : List Path) (ops : List SaverOp) : ∀ (fs : FS) (ss : Nat → Saver),
    runCluster order (ops.map fun op => (0, op)) fs ss =
      ((runSession order ops fs (ss 0)).1, upd ss 0 (runSession order ops fs (ss 0)).2.1,
        (runSession order ops fs (ss 0)).2.2) := by
  induction ops with
  | nil =>
    intro fs ss
    have e1 : upd ss 0 (ss 0) = ss := by funext q; by_cases e : q = 0 <;> simp [upd, e]
    simp [runCluster, runSession, e1]
  | cons op ops ih =>
    intro fs ss
    simp only [List.map_cons, runCluster, runSession]
    cases hr : op.run order fs (ss 0) with
    | mk fs1 x =>
      obtain ⟨s1, r⟩ := x
      cases r with
      | error e => rfl
      | ok u =>
        simp only
        have := ih fs1 (upd ss 0 s1)
        rw [upd_self, upd_upd] at this
        exact this

theorem opsOf_zero (ops : List SaverOp) : opsOf 0 (ops.map fun op => (0, op)) = ops := by
  induction ops with
  | nil => rfl
  | cons op ops ih => simp only [opsOf] at ih ⊢; simp [ih]

theorem opsOf_pos (ops : List SaverOp) {r : Nat} (h : r ≠ 0) : opsOf r (ops.map fun op => (0, op)) = [] := by
  simp [opsOf, Ne.symm h]

/-- One process whose rank is 0: the state after any good operations. -/
theorem session_inv {order : List Path} (ho : GoodOrder order) {n : Nat} {old : List Chunk} {fs : FS} {nw : Nat} {thr : Int}
    (hinit : Inv order n (fun r => if r = 0 then old else []) fs (fun r => Saver.init r (if r = 0 then nw else 1) thr) (fun _ => []))
    (ops : List SaverOp) (hgood : ∀ op ∈ ops, GoodOp order n op) :
    ∃ fs' s' ss' chunks, runSession order ops fs (Saver.init 0 nw thr) = (fs', s', .ok ()) ∧ ss' 0 = s' ∧
      Inv order n (fun r => if r = 0 then old else []) fs' ss' chunks ∧ (∀ r, r ≠ 0 → chunks r = []) ∧
      ((ops.getLast? = some .finalize) → s'.buffer = []) ∧
      (∀ k, k ∈ (allViews (chunks 0) s').map Prod.fst ↔ k ∈ (history ops).map Prod.fst) ∧
      (((history ops).map Prod.fst).Nodup → allViews (chunks 0) s' = history ops) := by
  obtain ⟨fs', ss', chunks, h1, h2, h3, h4, h5⟩ := cluster_inv ho hinit (fun r => rfl) (ops.map fun op => (0, op))
    (by
      intro x hx
      rw [List.mem_map] at hx
      obtain ⟨op, hop, rfl⟩ := hx
      exact hgood op hop)
  rw [runCluster_of_session] at h1
  simp only [if_true] at h1
  have e1 := congrArg Prod.fst h1
  have e2 := congrArg (fun x => x.2.1 0) h1
  have e3 := congrArg (fun x => x.2.2) h1
  simp only [upd_self] at e1 e2 e3
  refine ⟨fs', ss' 0, ss', chunks, ?_, rfl, h2, ?_, ?_, ?_, ?_⟩
  · rw [← e1, ← e2, ← e3]
  · intro r hr
    have hz := h5 r (by rw [opsOf_pos ops hr]; simp [history])
    rw [opsOf_pos ops hr] at hz
    simp only [history, allViews, List.append_eq_nil_iff] at hz
    refine chunks_eq_nil ?_ hz.1
    intro es hes
    exact h2.chunk_ne_nil r es (by simp [disk, hes])
  · intro hl; exact h3 0 (Or.inr (by rw [opsOf_zero]; exact hl))
  · have := h4 0; rw [opsOf_zero] at this; exact this
  · have := h5 0; rw [opsOf_zero] at this; exact this

theorem Inv.init_zero {order : List Path} {n : Nat} {fs : FS} (hfs : (Dict.keys fs).Nodup) (hclean : NoLogs fs)
    {nw : Nat} (hnw : nw ≤ 1) (thr : Int) :
    Inv order n (fun r => if r = 0 then [] else []) fs (fun r => Saver.init r (if r = 0 then nw else 1) thr) (fun _ => []) := by
  have := Inv.init (order := order) (n := n) hfs hclean (fun r => if r = 0 then nw else 1)
    (by intro r; by_cases e : r = 0 <;> simp [e, hnw]) (fun _ => thr)
  simpa using this

/-- Opening the directory of one process. -/
theorem Inv.opens_zero {order : List Path} (ho : GoodOrder order) {n : Nat} {old : List Chunk} {fs : FS} {ss : Nat → Saver}
    {chunks : Nat → List Chunk} (h : Inv order n (fun r => if r = 0 then old else []) fs ss chunks)
    (hz : ∀ r, r ≠ 0 → chunks r = []) {listing : List PyStr} (hl : listing.Perm (Dict.keys fs)) :
    ∃ ds, openDataset fs listing = .ok ds ∧
      Stores ds order (firstOcc Prod.fst (views (disk old (chunks 0)).flatten)) := by
  obtain ⟨ds, h1, h2⟩ := h.opens ho 1 (by
    intro r hr
    have hr0 : r ≠ 0 := by omega
    simp [hr0, hz r hr0, disk]) hl
  refine ⟨ds, h1, ?_⟩
  simpa using h2

/-! ### C02 -/

/-- **C02.** One process with synchronous flushing, a directory without logs, any flush threshold, any sequence of saves
and finalizes whose ids are all distinct, ending with a finalize. The session raises nothing and the dataset opened afterwards (for any
listing order of the directory) holds exactly the logged samples in logging order. -/
theorem C02_no_loss (order : List Path) (ho : GoodOrder order) (n : Nat) (fs : FS) (hfs : (Dict.keys fs).Nodup)
    (hclean : NoLogs fs) (nw : Nat) (hnw : nw ≤ 1) (thr : Int) (ops : List SaverOp)
    (hgood : ∀ op ∈ ops, GoodOp order n op) (hids : ((history ops).map Prod.fst).Nodup) :
    ∃ fs' s', runSession order (ops ++ [.finalize]) fs (Saver.init 0 nw thr) = (fs', s', .ok ()) ∧
      ∀ listing : List PyStr, listing.Perm (Dict.keys fs') →
        ∃ ds, openDataset fs' listing = .ok ds ∧ Stores ds order (history ops) := by
  have hh : history (ops ++ [.finalize]) = history ops := by rw [history_append]; simp [history]
  obtain ⟨fs', s', ss', chunks, h1, h2, h3, h4, h5, h6, h7⟩ := session_inv ho
    (Inv.init_zero (order := order) (n := n) hfs hclean hnw thr) (ops ++ [.finalize]) (by
      intro op hop
      rw [List.mem_append] at hop
      rcases hop with hop | hop
      · exact hgood op hop
      · simp at hop; subst hop; trivial)
  refine ⟨fs', s', h1, ?_⟩
  intro listing hl
  obtain ⟨ds, g1, g2⟩ := h3.opens_zero ho h4 hl
  refine ⟨ds, g1, ?_⟩
  rw [hh] at h7
  have h8 := h7 hids
  rw [allViews] at h8
  have hb : views s'.items = [] := by simp [views, Saver.items, h5 (by simp)]
  rw [hb, List.append_nil] at h8
  rw [disk_nil_old, h8, firstOcc_of_nodup _ _ hids] at g2
  exact g2

/-! ### C03 -/

/-- Two datasets show the same samples: same length, same ids in the same order, same arrays, same flat arrays. -/
structure Spec.SameData (d1 d2 : Dataset) : Prop where
  len : d1.len = d2.len
  items : ∀ i < d1.len, ∃ id nd1 nd2, d1.getItem i = .ok (id, nd1) ∧ d2.getItem i = .ok (id, nd2) ∧
    ∀ p, nd1.lookup p = nd2.lookup p
  flats : ∀ i < d1.len, ∃ id a, d1.getItemFlat i = .ok (id, a) ∧ d2.getItemFlat i = .ok (id, a)

theorem SameData.of_stores {d1 d2 : Dataset} {order : List Path} {samples : List (PyStr × View)}
    (h1 : Stores d1 order samples) (h2 : Stores d2 order samples)
    (hne : ∀ x ∈ samples, ∃ p ∈ order, (x.2 p).isSome) : SameData d1 d2 := by
  refine ⟨by rw [h1.len, h2.len], ?_, ?_⟩
  · intro i hi
    rw [h1.len] at hi
    obtain ⟨n1, a1, b1⟩ := h1.nested i hi
    obtain ⟨n2, a2, b2⟩ := h2.nested i hi
    exact ⟨_, n1, n2, a1, a2, fun p => by rw [b1, b2]⟩
  · intro i hi
    rw [h1.len] at hi
    obtain ⟨f1, a1, b1, c1, e1⟩ := h1.flat i hi
    obtain ⟨f2, a2, b2, c2, e2⟩ := h2.flat i hi
    obtain ⟨p, hp, hs⟩ := hne _ (List.getElem_mem hi)
    obtain ⟨b, hb⟩ := Option.isSome_iff_exists.1 hs
    have hm : b ∈ order.filterMap samples[i].2 := List.mem_filterMap.2 ⟨p, hp, hb⟩
    have : f1 = f2 := by
      apply Arr.ext
      · rw [← e1 b hm, ← e2 b hm]
      · rw [c1, c2]
      · rw [b1, b2]
    subst this
    exact ⟨_, f1, a1, a2⟩

theorem history_watched {order : List Path} (ho : GoodOrder order) {n : Nat} {ops : List SaverOp}
    (hgood : ∀ op ∈ ops, GoodOp order n op) : ∀ x ∈ history ops, ∃ p ∈ order, (x.2 p).isSome := by
  induction ops with
  | nil => intro x hx; simp [history] at hx
  | cons op ops ih =>
    intro x hx
    cases op with
    | finalize => exact ih (fun o h => hgood o (by simp [h])) x hx
    | save ids log =>
      simp only [history, List.mem_append] at hx
      rcases hx with hx | hx
      · have hg : GoodBatch order n ids log := hgood (.save ids log) (by simp)
        simp only [batchViews, List.mem_map] at hx
        obtain ⟨y, hy, rfl⟩ := hx
        have hlt : y.2 < ids.length := by
          obtain ⟨a, i⟩ := y
          rw [List.mem_zipIdx_iff_getElem?] at hy
          exact (List.getElem?_eq_some_iff.1 hy).1
        obtain ⟨p, hp⟩ := List.exists_mem_of_ne_nil _ ho.nonempty
        obtain ⟨t, ht, _⟩ := hg.watched p hp
        obtain ⟨b, sh, h1, hb⟩ := hg.rows p t ht
        obtain ⟨r, hr⟩ := row_ok_iff.2 ⟨b, sh, h1, (by omega : y.2 < b)⟩
        exact ⟨p, hp, by simp [rowView, ht, hr, Except.toOption]⟩
      · exact ih (fun o h => hgood o (by simp [h])) x hx

/-- **C03.** The same batches logged with two flush thresholds (distinct ids, synchronous flushing, directories without
logs) give datasets showing the same data. -/
theorem C03_threshold_independent (order : List Path) (ho : GoodOrder order) (n : Nat) (fsA fsB : FS)
    (hA : (Dict.keys fsA).Nodup) (hB : (Dict.keys fsB).Nodup) (hcA : NoLogs fsA) (hcB : NoLogs fsB)
    (nwA nwB : Nat) (hnA : nwA ≤ 1) (hnB : nwB ≤ 1) (thrA thrB : Int) (ops : List SaverOp)
    (hgood : ∀ op ∈ ops, GoodOp order n op) (hids : ((history ops).map Prod.fst).Nodup) :
    ∃ fsA' sA fsB' sB,
      runSession order (ops ++ [.finalize]) fsA (Saver.init 0 nwA thrA) = (fsA', sA, .ok ()) ∧
      runSession order (ops ++ [.finalize]) fsB (Saver.init 0 nwB thrB) = (fsB', sB, .ok ()) ∧
      ∀ la lb : List PyStr, la.Perm (Dict.keys fsA') → lb.Perm (Dict.keys fsB') →
        ∃ dA dB, openDataset fsA' la = .ok dA ∧ openDataset fsB' lb = .ok dB ∧ SameData dA dB := by
  obtain ⟨fsA', sA, a1, a2⟩ := C02_no_loss order ho n fsA hA hcA nwA hnA thrA ops hgood hids
  obtain ⟨fsB', sB, b1, b2⟩ := C02_no_loss order ho n fsB hB hcB nwB hnB thrB ops hgood hids
  refine ⟨fsA', sA, fsB', sB, a1, b1, ?_⟩
  intro la lb hla hlb
  obtain ⟨dA, a3, a4⟩ := a2 la hla
  obtain ⟨dB, b3, b4⟩ := b2 lb hlb
  exact ⟨dA, dB, a3, b3, SameData.of_stores a4 b4 (history_watched ho hgood)⟩

/-! ### C04 -/

theorem flush_bounded {order : List Path} {fs fs' : FS} {s s' : Saver} (h : s.flush order fs = (fs', s', .ok ()))
    (hu : unflushed s ≤ s.bufferSize) (hthr : 0 < s.flushThreshold) : (unflushed s' : Int) ≤ s.flushThreshold := by
  unfold Saver.flush at h
  by_cases hc : 0 < s.flushThreshold ∧ s.flushThreshold < (s.bufferSize : Int)
  · rw [if_pos hc] at h
    have hz : unflushed s' = 0 := by
      split at h
      · simp only [Saver.flushSafe, Prod.mk.injEq] at h
        obtain ⟨_, rfl, _⟩ := h
        simp [unflushed, Saver.items, Saver.bufferClear]
      · unfold Saver.flushSerialized at h
        cases hbe : s.buffer.isEmpty with
        | true =>
          rw [hbe] at h
          simp only [if_true, Prod.mk.injEq] at h
          obtain ⟨_, rfl, _⟩ := h
          have : s.buffer = [] := List.isEmpty_iff.1 hbe
          simp [unflushed, Saver.items, this]
        | false =>
          rw [hbe] at h
          simp only [Bool.false_eq_true, if_false] at h
          cases hw : (writeChunk (chunkFile s.rank s.flushCount) s.items order).2 with
          | error e => rw [hw] at h; simp at h
          | ok u3 =>
            rw [hw] at h
            simp only [Prod.mk.injEq] at h
            obtain ⟨_, rfl, _⟩ := h
            simp [unflushed, Saver.items, Saver.bufferClear]
    rw [hz]; omega
  · rw [if_neg hc] at h
    simp only [Prod.mk.injEq] at h
    obtain ⟨_, rfl, _⟩ := h
    omega

/-- **C04.** After any session that ends with a save and raised nothing, with a positive threshold, at most `threshold` array
elements are waiting in memory. (Any logs, any ids, repeated or not; synchronous or not.) -/
theorem C04_buffer_bounded (order : List Path) (fs : FS) (rank nw : Nat) (thr : Int) (hthr : 0 < thr) (ops : List SaverOp)
    (ids : List PyStr) (log : List (PyStr × Nested Arr)) (fs' : FS) (s' : Saver)
    (h : runSession order (ops ++ [.save ids log]) fs (Saver.init rank nw thr) = (fs', s', .ok ())) :
    (unflushed s' : Int) ≤ thr := by
  rw [runSession_append] at h
  have h0 := session_elements order ops fs (Saver.init rank nw thr) (by simp [unflushed, Saver.items, Saver.init])
  cases hr : runSession order ops fs (Saver.init rank nw thr) with
  | mk fs1 x =>
    obtain ⟨s1, r⟩ := x
    rw [hr] at h h0
    simp only at h0
    cases r with
    | error e => simp at h
    | ok u =>
      simp only [runSession, SaverOp.run, Saver.saveLog, Saver.bufferWrite] at h
      have h1 := bufferWriteFrom_elements log ids 0 s1 h0.1
      cases hb : Saver.bufferWriteFrom log 0 ids s1 with
      | mk s2 r2 =>
        rw [hb] at h h1
        simp only at h1
        have ht : s2.flushThreshold = thr := h1.2.1.trans h0.2.1
        cases r2 with
        | error e => simp at h
        | ok u2 =>
          simp only at h
          cases hf : s2.flush order fs1 with
          | mk fs3 y =>
            obtain ⟨s3, r3⟩ := y
            rw [hf] at h
            cases r3 with
            | error e => simp at h
            | ok u3 =>
              simp only [Prod.mk.injEq] at h
              obtain ⟨_, rfl, _⟩ := h
              have := flush_bounded hf h1.1 (by rw [ht]; exact hthr)
              rw [ht] at this; exact this

/-- **C04**, threshold not positive: saves write nothing. -/
theorem C04_nonpositive_never_writes (order : List Path) (fs : FS) (rank nw : Nat) (thr : Int) (hthr : thr ≤ 0)
    (ops : List SaverOp) (hsave : ∀ op ∈ ops, op ≠ .finalize) :
    (runSession order ops fs (Saver.init rank nw thr)).1 = fs := by
  have key : ∀ (s : Saver), unflushed s ≤ s.bufferSize → s.flushThreshold ≤ 0 → (runSession order ops fs s).1 = fs := by
    induction ops with
    | nil => intro s _ _; rfl
    | cons op ops ih =>
      intro s hu hs
      cases op with
      | finalize => exact absurd rfl (hsave .finalize (by simp))
      | save ids log =>
        have h1 := bufferWriteFrom_elements log ids 0 s hu
        simp only [runSession, SaverOp.run, Saver.saveLog, Saver.bufferWrite]
        cases hb : Saver.bufferWriteFrom log 0 ids s with
        | mk s1 r =>
          rw [hb] at h1
          simp only at h1
          cases r with
          | error e => rfl
          | ok u =>
            have hn : ¬ (0 < s1.flushThreshold ∧ s1.flushThreshold < (s1.bufferSize : Int)) := by omega
            simp only [Saver.flush, if_neg hn]
            exact ih (fun o h => hsave o (by simp [h])) s1 h1.1 (by omega)
  exact key _ (by simp [unflushed, Saver.items, Saver.init]) hthr

/-! ### C06 -/

/-- **C06.** Any number `W` of ranks, any interleaving of their operations, any thresholds, ids distinct overall,
every rank's last operation (if it did anything) a finalize. Nothing raises, and the dataset is the concatenation in rank order of the
ranks' histories, that is (by C02) of what every rank alone would have produced. -/
theorem C06_ranks (order : List Path) (ho : GoodOrder order) (n : Nat) (fs : FS) (hfs : (Dict.keys fs).Nodup)
    (hclean : NoLogs fs) (W : Nat) (nw : Nat → Nat) (hnw : ∀ r, nw r ≤ 1) (thr : Nat → Int)
    (sched : List (Nat × SaverOp)) (hW : ∀ x ∈ sched, x.1 < W) (hgood : ∀ x ∈ sched, GoodOp order n x.2)
    (hfin : ∀ r, opsOf r sched = [] ∨ (opsOf r sched).getLast? = some .finalize)
    (hids : (((List.range W).flatMap fun r => history (opsOf r sched)).map Prod.fst).Nodup) :
    ∃ fs' ss', runCluster order sched fs (fun r => Saver.init r (nw r) (thr r)) = (fs', ss', .ok ()) ∧
      ∀ listing : List PyStr, listing.Perm (Dict.keys fs') →
        ∃ ds, openDataset fs' listing = .ok ds ∧
          Stores ds order ((List.range W).flatMap fun r => history (opsOf r sched)) := by
  obtain ⟨fs', ss', chunks, h1, h2, h3, h4, h5⟩ := cluster_inv ho
    (Inv.init (order := order) (n := n) hfs hclean nw hnw thr) (fun r => rfl) sched hgood
  refine ⟨fs', ss', h1, ?_⟩
  intro listing hl
  have hout : ∀ r, W ≤ r → opsOf r sched = [] := by
    intro r hr
    unfold opsOf
    rw [List.map_eq_nil_iff, List.filter_eq_nil_iff]
    intro x hx
    have := hW x hx
    simp; omega
  have hb : ∀ r, views (ss' r).items = [] := by
    intro r; simp [views, Saver.items, h3 r (hfin r)]
  have hc : ∀ r, W ≤ r → chunks r = [] := by
    intro r hr
    have hz := h5 r (by rw [hout r hr]; simp [history])
    rw [hout r hr, allViews] at hz
    simp only [history, List.append_eq_nil_iff] at hz
    exact chunks_eq_nil (fun es hes => h2.chunk_ne_nil r es (by simp [disk, hes])) hz.1
  obtain ⟨ds, g1, g2⟩ := h2.opens ho W (by intro r hr; rw [disk_nil_old]; exact hc r hr) hl
  refine ⟨ds, g1, ?_⟩
  have e : ((List.range W).flatMap fun r => views (disk [] (chunks r)).flatten)
      = (List.range W).flatMap fun r => history (opsOf r sched) := by
    rw [List.flatMap_def, List.flatMap_def]
    congr 1
    apply List.map_congr_left
    intro r hr
    rw [disk_nil_old]
    have hn : ((history (opsOf r sched)).map Prod.fst).Nodup := by
      rw [List.map_flatMap, List.flatMap_def, List.nodup_flatten] at hids
      exact hids.1 _ (List.mem_map_of_mem hr)
    have := h5 r hn
    rw [allViews, hb r, List.append_nil] at this
    exact this
  rw [e, firstOcc_of_nodup _ _ hids] at g2
  exact g2

/-! ### C07 -/

/-- **C07** (each id once). Any good operations, ids repeated at will, ending with a finalize: the dataset has every logged id
exactly once and no other id. -/
theorem C07_ids_once (order : List Path) (ho : GoodOrder order) (n : Nat) (fs : FS) (hfs : (Dict.keys fs).Nodup)
    (hclean : NoLogs fs) (nw : Nat) (hnw : nw ≤ 1) (thr : Int) (ops : List SaverOp)
    (hgood : ∀ op ∈ ops, GoodOp order n op) :
    ∃ fs' s', runSession order (ops ++ [.finalize]) fs (Saver.init 0 nw thr) = (fs', s', .ok ()) ∧
      ∀ listing : List PyStr, listing.Perm (Dict.keys fs') →
        ∃ ds samples, openDataset fs' listing = .ok ds ∧ Stores ds order samples ∧
          (samples.map Prod.fst).Nodup ∧ ∀ id, id ∈ samples.map Prod.fst ↔ id ∈ (history ops).map Prod.fst := by
  have hh : history (ops ++ [.finalize]) = history ops := by rw [history_append]; simp [history]
  obtain ⟨fs', s', ss', chunks, h1, h2, h3, h4, h5, h6, h7⟩ := session_inv ho
    (Inv.init_zero (order := order) (n := n) hfs hclean hnw thr) (ops ++ [.finalize]) (by
      intro op hop
      rw [List.mem_append] at hop
      rcases hop with hop | hop
      · exact hgood op hop
      · simp at hop; subst hop; trivial)
  refine ⟨fs', s', h1, ?_⟩
  intro listing hl
  obtain ⟨ds, g1, g2⟩ := h3.opens_zero ho h4 hl
  refine ⟨ds, _, g1, g2, firstOcc_keys_nodup _ _, ?_⟩
  intro id
  rw [mem_keys_firstOcc, ← hh, ← h6 id, allViews]
  have hb : views s'.items = [] := by simp [views, Saver.items, h5 (by simp)]
  rw [hb, List.append_nil, disk_nil_old]

theorem firstOcc_append_prefix (key : α → PyStr) (a b : List α) : firstOcc key a <+: firstOcc key (a ++ b) := by
  induction b using List.reverseRecOn with
  | nil => simp
  | append_singleton b x ih =>
    rw [← List.append_assoc, firstOcc_append_singleton]
    split
    · exact ih
    · exact ih.trans (List.prefix_append _ _)

/-- Continuing a session only adds chunks. -/
theorem Inv.continue {order : List Path} (ho : GoodOrder order) {n : Nat} {old : Nat → List Chunk} (ops : List SaverOp)
    (hgood : ∀ op ∈ ops, GoodOp order n op) : ∀ {fs : FS} {ss : Nat → Saver} {chunks : Nat → List Chunk},
    Inv order n old fs ss chunks → (∀ r, r ≠ 0 → chunks r = []) →
    ∃ fs' s' ss' chunks', runSession order ops fs (ss 0) = (fs', s', .ok ()) ∧ ss' 0 = s' ∧
      Inv order n old fs' ss' chunks' ∧ (∀ r, r ≠ 0 → chunks' r = []) ∧ chunks 0 <+: chunks' 0 := by
  induction ops with
  | nil => intro fs ss chunks h hz; exact ⟨fs, ss 0, ss, chunks, rfl, rfl, h, hz, List.prefix_refl _⟩
  | cons op ops ih =>
    intro fs ss chunks h hz
    obtain ⟨fs1, s1, cs, g1, g2, g3, g4⟩ := h.step ho 0 op (hgood op (by simp))
    obtain ⟨fs', s', ss', chunks', k1, k2, k3, k4, k5⟩ := ih (fun o ho => hgood o (by simp [ho])) g2 (by
      intro r hr; rw [upd_ne _ _ hr]; exact hz r hr)
    refine ⟨fs', s', ss', chunks', ?_, k2, k3, k4, ?_⟩
    · simp only [runSession, g1]
      rw [upd_self] at k1
      exact k1
    · rw [upd_self] at k5
      refine List.IsPrefix.trans ?_ k5
      rcases g4 with ⟨rfl, _⟩ | ⟨_, es, rfl, _⟩
      · exact List.prefix_refl _
      · exact List.prefix_append _ _

/-- **C07** (first flushed log is kept). Whatever is in the dataset at some point of a session stays there, at the same
index, with the same id and the same arrays, whatever is logged (and flushed) later, also under the same ids. -/
theorem C07_flushed_is_kept (order : List Path) (ho : GoodOrder order) (n : Nat) (fs : FS) (hfs : (Dict.keys fs).Nodup)
    (hclean : NoLogs fs) (nw : Nat) (hnw : nw ≤ 1) (thr : Int) (ops later : List SaverOp)
    (hgood : ∀ op ∈ ops, GoodOp order n op) (hlater : ∀ op ∈ later, GoodOp order n op) :
    ∃ fs1 s1 fs2 s2, runSession order ops fs (Saver.init 0 nw thr) = (fs1, s1, .ok ()) ∧
      runSession order later fs1 s1 = (fs2, s2, .ok ()) ∧
      ∀ l1 l2 : List PyStr, l1.Perm (Dict.keys fs1) → l2.Perm (Dict.keys fs2) →
        ∃ d1 d2, openDataset fs1 l1 = .ok d1 ∧ openDataset fs2 l2 = .ok d2 ∧ d1.len ≤ d2.len ∧
          ∀ i < d1.len, ∃ id nd1 nd2, d1.getItem i = .ok (id, nd1) ∧ d2.getItem i = .ok (id, nd2) ∧
            ∀ p, nd1.lookup p = nd2.lookup p := by
  obtain ⟨fs1, s1, ss1, ch1, h1, h2, h3, h4, _, _, _⟩ := session_inv ho
    (Inv.init_zero (order := order) (n := n) hfs hclean hnw thr) ops hgood
  obtain ⟨fs2, s2, ss2, ch2, k1, k2, k3, k4, k5⟩ := Inv.continue ho later hlater h3 h4
  rw [h2] at k1
  refine ⟨fs1, s1, fs2, s2, h1, k1, ?_⟩
  intro l1 l2 hl1 hl2
  obtain ⟨d1, a1, a2⟩ := h3.opens_zero ho h4 hl1
  obtain ⟨d2, b1, b2⟩ := k3.opens_zero ho k4 hl2
  rw [disk_nil_old] at a2 b2
  have hp : firstOcc Prod.fst (views (ch1 0).flatten) <+: firstOcc Prod.fst (views (ch2 0).flatten) := by
    obtain ⟨more, hm⟩ := k5
    rw [← hm, List.flatten_append, views_append]
    exact firstOcc_append_prefix _ _ _
  refine ⟨d1, d2, a1, b1, ?_, ?_⟩
  · rw [a2.len, b2.len]; exact hp.length_le
  · intro i hi
    rw [a2.len] at hi
    have hi2 : i < (firstOcc Prod.fst (views (ch2 0).flatten)).length := Nat.lt_of_lt_of_le hi hp.length_le
    have he : (firstOcc Prod.fst (views (ch1 0).flatten))[i] = (firstOcc Prod.fst (views (ch2 0).flatten))[i] :=
      List.IsPrefix.getElem hp hi
    obtain ⟨n1, x1, y1⟩ := a2.nested i hi
    obtain ⟨n2, x2, y2⟩ := b2.nested i hi2
    rw [← he] at x2 y2
    exact ⟨_, n1, n2, x1, x2, fun p => by rw [y1, y2]⟩

/-- Sessions without a positive threshold: the whole session is one chunk. -/
theorem session_noflush {order : List Path} {n : Nat} (ops : List SaverOp)
    (hgood : ∀ op ∈ ops, GoodOp order n op) (hsave : ∀ op ∈ ops, op ≠ .finalize) (fs : FS) : ∀ (s : Saver),
    s.flushThreshold ≤ 0 → (Dict.keys s.buffer).Nodup → (∀ e ∈ s.items, GoodSample order n e.2) →
    ∃ buf c, runSession order ops fs s = (fs, { s with buffer := buf, bufferSize := c }, .ok ()) ∧
      (Dict.keys buf).Nodup ∧ (∀ e ∈ Saver.items { s with buffer := buf, bufferSize := c }, GoodSample order n e.2) ∧
      views (Saver.items { s with buffer := buf, bufferSize := c }) = ops.foldl record (views s.items) := by
  induction ops with
  | nil => intro s _ hk hs; exact ⟨s.buffer, s.bufferSize, rfl, hk, hs, rfl⟩
  | cons op ops ih =>
    intro s ht hk hs
    cases op with
    | finalize => exact absurd rfl (hsave .finalize (by simp))
    | save ids log =>
      have hg : GoodBatch order n ids log := hgood (.save ids log) (by simp)
      obtain ⟨buf, c, h1, h2, h3, h4⟩ := bufferWriteFrom_ok hg ids 0 s (by simp) hk hs
      obtain ⟨buf', c', g1, g2, g3, g4⟩ := ih (fun o h => hgood o (by simp [h])) (fun o h => hsave o (by simp [h]))
        { s with buffer := buf, bufferSize := c } ht h2 h3
      refine ⟨buf', c', ?_, g2, g3, ?_⟩
      · simp only [runSession, SaverOp.run, Saver.saveLog, Saver.bufferWrite, h1, Saver.flush]
        rw [if_neg (by omega)]
        exact g1
      · rw [g4]; simp only [List.foldl_cons, record, h4]

/-- **C07** (logged again while still buffered). Without intermediate flushes (threshold not positive; any number of workers) the
dataset is the result of recording the batches one after the other into a dictionary: see `recordFrom` and
`C07_record_again` for what that means for a repeated id. -/
theorem C07_buffered_is_replaced (order : List Path) (ho : GoodOrder order) (n : Nat) (fs : FS) (hfs : (Dict.keys fs).Nodup)
    (hclean : NoLogs fs) (rank nw : Nat) (thr : Int) (hthr : thr ≤ 0) (ops : List SaverOp) (hsave : ∀ op ∈ ops, op ≠ .finalize)
    (hgood : ∀ op ∈ ops, GoodOp order n op) :
    ∃ fs' s', runSession order (ops ++ [.finalize]) fs (Saver.init rank nw thr) = (fs', s', .ok ()) ∧
      ∀ listing : List PyStr, listing.Perm (Dict.keys fs') →
        ∃ ds, openDataset fs' listing = .ok ds ∧ Stores ds order (ops.foldl record []) := by
  obtain ⟨buf, c, h1, h2, h3, h4⟩ := session_noflush ops hgood hsave fs (Saver.init rank nw thr) hthr
    (by simp [Saver.init, Dict.keys]) (by simp [Saver.init, Saver.items])
  rw [runSession_append, h1]
  simp only [runSession, SaverOp.run, Saver.finalize]
  have hv0 : views (Saver.init rank nw thr).items = [] := rfl
  rw [hv0] at h4
  by_cases hb : buf = []
  · subst hb
    refine ⟨fs, _, rfl, ?_⟩
    intro listing hl
    obtain ⟨ds, g1, g2⟩ := openDataset_holds ho (DirHas.of_noLogs hclean order) hfs hl (by simp)
    refine ⟨ds, g1, ?_⟩
    have : ops.foldl record [] = [] := by rw [← h4]; rfl
    rw [this]
    exact Stores.of_holds g2
  · obtain ⟨g1, g2⟩ := flushSerialized_ok ho fs { Saver.init rank nw thr with buffer := buf, bufferSize := c } h3 hb
    rw [g1]
    refine ⟨_, _, rfl, ?_⟩
    intro listing hl
    have hd := (DirHas.of_noLogs hclean order).addChunk_last (Saver.init rank nw thr).rank (Saver.init rank nw thr).flushCount _ g2 (by simp)
    obtain ⟨ds, k1, k2⟩ := openDataset_holds ho hd (addChunk_nodup hfs order _ _ _) hl (by
      intro x hx; simp only [List.nil_append, List.mem_singleton] at hx; subst hx
      exact fun e he => ⟨(h3 e he).all, (h3 e he).one⟩)
    refine ⟨ds, k1, ?_⟩
    have k3 := Stores.of_holds k2
    simp only [List.nil_append, List.flatMap_cons, List.flatMap_nil, List.append_nil] at k3
    rw [views_firstOcc, h4, firstOcc_of_nodup _ _ ?_] at k3
    · exact k3
    · rw [← h4, views_keys, items_keys]; exact h2

theorem recordFrom_get?_not_mem (log : List (PyStr × Nested Arr)) (ids : List PyStr) : ∀ (idx : Nat) (d : Dict PyStr View) (id : PyStr),
    id ∉ ids → Dict.get? (recordFrom log idx ids d) id = Dict.get? d id := by
  induction ids with
  | nil => intros; rfl
  | cons a ids ih =>
    intro idx d id h
    simp only [List.mem_cons, not_or] at h
    simp only [recordFrom]
    rw [ih _ _ _ h.2, Dict.get?_set_ne _ _ (Ne.symm h.1)]

theorem recordFrom_get? (log : List (PyStr × Nested Arr)) (ids : List PyStr) : ∀ (idx : Nat) (d : Dict PyStr View), ids.Nodup →
    ∀ (i : Nat) (h : i < ids.length), Dict.get? (recordFrom log idx ids d) ids[i]
      = some (overlay (rowView log (idx + i)) ((Dict.get? d ids[i]).getD fun _ => none)) := by
  induction ids with
  | nil => intro idx d _ i h; simp at h
  | cons a ids ih =>
    intro idx d hn i h
    rw [List.nodup_cons] at hn
    cases i with
    | zero =>
      simp only [recordFrom, List.getElem_cons_zero, Nat.add_zero]
      rw [recordFrom_get?_not_mem _ _ _ _ _ hn.1, Dict.get?_set_self]
    | succ i =>
      simp only [recordFrom, List.getElem_cons_succ]
      rw [ih (idx + 1) _ hn.2 i (by simpa using h)]
      have hne : a ≠ ids[i]'(by simpa using h) := fun e => hn.1 (e ▸ List.getElem_mem _)
      rw [Dict.get?_set_ne _ _ hne]
      congr 3; omega

/-- What recording a batch does to the waiting samples: the i-th id gets the i-th row at every path the log has, and keeps
what it had elsewhere; other ids are untouched; an id that was present keeps its place. -/
theorem C07_record_again (d : Dict PyStr View) (ids : List PyStr) (hn : ids.Nodup) (log : List (PyStr × Nested Arr)) :
    (∀ (i : Nat) (h : i < ids.length), ∃ v, Dict.get? (record d (.save ids log)) ids[i] = some v ∧
      ∀ p, v p = match rowView log i p with
        | some a => some a
        | none => (Dict.get? d ids[i]).bind fun old => old p) ∧
    (∀ id, id ∉ ids → Dict.get? (record d (.save ids log)) id = Dict.get? d id) ∧
    ∀ id, id ∈ Dict.keys (record d (.save ids log)) ↔ id ∈ Dict.keys d ∨ id ∈ ids := by
  refine ⟨?_, ?_, ?_⟩
  · intro i h
    refine ⟨_, recordFrom_get? log ids 0 d hn i h, ?_⟩
    intro p
    simp only [overlay, Nat.zero_add]
    cases rowView log i p with
    | some a => simp
    | none => cases Dict.get? d ids[i] <;> simp
  · intro id h; exact recordFrom_get?_not_mem log ids 0 d id h
  · intro id; exact mem_keys_recordFrom log ids 0 d id

/-! ### C13 -/

/-- **C13.** Saving a batch (distinct ids, a log of depth `n` all of whose tensors have at least as many rows as there are ids) into any
buffer of depth `n` succeeds; for the i-th id the buffer then has at every logged path exactly the i-th row of the tensor there, elsewhere what it had
before; other ids are untouched. -/
theorem C13_rows (n : Nat) (s : Saver) (hk : (Dict.keys s.buffer).Nodup) (hs : ∀ e ∈ s.items, AtDepth n e.2)
    (ids : List PyStr) (hn : ids.Nodup) (log : List (PyStr × Nested Arr)) (hwf : (Nested.node log).WF)
    (hd : AtDepth n (Nested.node log))
    (hrows : ∀ p t, (Nested.node log).lookup p = some t → ∃ b sh, t.shape = b :: sh ∧ ids.length ≤ b) :
    ∃ s', s.bufferWrite ids log = (s', .ok ()) ∧
      (∀ (i : Nat) (h : i < ids.length), ∃ d, (ids[i], d) ∈ s'.items ∧
        ∀ p, match (Nested.node log).lookup p with
          | some t => ∃ r, t.row i = .ok r ∧ d.lookup p = some r
          | none => d.lookup p = (Dict.get? s.items ids[i]).bind fun old => old.lookup p) ∧
      ∀ id, id ∉ ids → (Dict.get? s'.items id).map Nested.lookup = (Dict.get? s.items id).map Nested.lookup := by
  obtain ⟨buf, c, h1, h2, h3, h4⟩ := bufferWriteFrom_core (Q := AtDepth n) hwf hd hrows (fun d h => h) (fun _ _ d h _ => h)
    ids 0 s (by simp) hk hs
  have hvg : ∀ (es : List (PyStr × Nested Arr)) (id : PyStr),
      Dict.get? (views es) id = (Dict.get? es id).map Nested.lookup := by
    intro es id; exact Dict.get?_map es Nested.lookup id
  refine ⟨_, h1, ?_, ?_⟩
  · intro i h
    have hr := recordFrom_get? log ids 0 (views s.items) hn i h
    rw [← h4, hvg] at hr
    obtain ⟨d, hd1, hd2⟩ := Option.map_eq_some_iff.1 hr
    refine ⟨d, Dict.mem_of_get? _ hd1, ?_⟩
    intro p
    have hp := congrFun hd2 p
    simp only [overlay, rowView, Nat.zero_add, hvg] at hp
    cases hl : (Nested.node log).lookup p with
    | none =>
      rw [hl] at hp
      simp only [hp]
      cases Dict.get? s.items ids[i] <;> simp
    | some t =>
      obtain ⟨b, sh, g1, g2⟩ := hrows p t hl
      obtain ⟨r, hrow⟩ := row_ok_iff.2 ⟨b, sh, g1, (by omega : i < b)⟩
      refine ⟨r, hrow, ?_⟩
      rw [hp, hl]; simp [hrow, Except.toOption]
  · intro id hid
    rw [← hvg, ← hvg, h4]
    exact recordFrom_get?_not_mem log ids 0 _ id hid

/-- A row is the i-th slice: cutting a tensor into its rows and joining them gives the tensor back. -/
theorem C13_rows_are_slices (t : Arr) (b : Nat) (sh : List Nat) (h : t.shape = b :: sh) :
    (List.range b).flatMap (fun i => ((t.row i).toOption.map Arr.bytes).getD []) = t.bytes ∧
    ∀ i < b, ∃ r, t.row i = .ok r ∧ r.shape = sh ∧ r.dtype = t.dtype := by
  have hrow : ∀ i < b, ∃ r, t.row i = .ok r ∧ r.shape = sh ∧ r.dtype = t.dtype ∧
      r.bytes = (t.bytes.drop (i * (numel sh * t.dtype.itemsize))).take (numel sh * t.dtype.itemsize) := by
    intro i hi
    obtain ⟨r, hr⟩ := row_ok_iff.2 ⟨b, sh, h, hi⟩
    have := row_spec hr
    rw [h] at this
    exact ⟨r, hr, this.2.1, this.1, this.2.2⟩
  refine ⟨?_, fun i hi => by obtain ⟨r, h1, h2, h3, _⟩ := hrow i hi; exact ⟨r, h1, h2, h3⟩⟩
  have hlen : t.bytes.length = b * (numel sh * t.dtype.itemsize) := by
    rw [t.wf, h, numel_cons, Nat.mul_assoc]
  have key : ∀ k ≤ b, (List.range k).flatMap (fun i => ((t.row i).toOption.map Arr.bytes).getD [])
      = t.bytes.take (k * (numel sh * t.dtype.itemsize)) := by
    intro k
    induction k with
    | zero => intro _; simp
    | succ k ih =>
      intro hk
      obtain ⟨r, h1, _, _, h4⟩ := hrow k (by omega)
      rw [List.range_succ, List.flatMap_append, ih (by omega)]
      simp only [List.flatMap_cons, List.flatMap_nil, List.append_nil, h1, Except.toOption, Option.map_some,
        Option.getD_some, h4]
      rw [Nat.add_mul, Nat.one_mul, List.take_add]
  rw [key b (Nat.le_refl _), ← hlen, List.take_length]

/-- **C13**, more ids than rows: IndexError. -/
theorem C13_too_few_rows (s : Saver) (ids : List PyStr) (log : List (PyStr × Nested Arr)) (p : Path) (t : Arr)
    (b : Nat) (sh : List Nat) (ht : (Nested.node log).lookup p = some t) (hshape : t.shape = b :: sh) (hfew : b < ids.length) :
    (s.bufferWrite ids log).2 = .error .indexError := by
  cases h : (s.bufferWrite ids log).2 with
  | error e => rw [bufferWriteFrom_error log ids 0 s e h]
  | ok u =>
    exfalso
    obtain ⟨r, hr⟩ := bufferWriteFrom_ok_rows log ids 0 s h b (by omega) (by omega) (p, t)
      (by have := mem_leaves_of_lookup ht; simpa [Nested.leaves] using this)
    obtain ⟨b', sh', h1, h2⟩ := row_ok_iff.1 ⟨r, hr⟩
    rw [hshape] at h1; cases h1; omega

/-! ### C12, saver part -/

/-- **C12** (saver). If a buffered sample lacks an array for some path of the write order, flushing raises, the saver
(buffer, counters) is unchanged, and every file other than the chunk's data file, in particular its metadata file, is as before; so the next attempt
fails in the same way. -/
theorem C12_flush_keeps_buffer (order : List Path) (n : Nat) (fs : FS) (s : Saver) (hd : ∀ e ∈ s.items, AtDepth n e.2)
    (hlen : ∀ p ∈ order, p.length = n) (hmiss : ∃ e ∈ s.items, ∃ p ∈ order, e.2.lookup p = none) :
    ∃ fs' err, s.finalize order fs = (fs', s, .error err) ∧
      (∀ name, name ≠ (Spec.dataFileName s.rank s.flushCount).toList → Dict.get? fs' name = Dict.get? fs name) ∧
      (0 < s.flushThreshold ∧ s.flushThreshold < (s.bufferSize : Int) → s.numWorkers ≤ 1 →
        s.flush order fs = (fs', s, .error err)) ∧
      ∃ fs'' err', s.finalize order fs' = (fs'', s, .error err') := by
  have hb : s.buffer.isEmpty = false := by
    obtain ⟨e, he, _⟩ := hmiss
    cases hbuf : s.buffer with
    | nil => rw [Saver.items, hbuf] at he; simp at he
    | cons x xs => rfl
  have key : ∀ fs : FS, ∃ err, s.finalize order fs =
      (runActions fs (writeChunk (chunkFile s.rank s.flushCount) s.items order).1, s, .error err) := by
    intro fs
    obtain ⟨⟨err, h1⟩, _⟩ := C12_incomplete_rejected fs s.rank s.flushCount s.items order n hd hlen hmiss
    rw [dataFileName_eq] at h1
    exact ⟨err, by simp only [Saver.finalize, Saver.flushSerialized, hb, Bool.false_eq_true, if_false, h1]⟩
  obtain ⟨err, h1⟩ := key fs
  obtain ⟨err', h2⟩ := key (runActions fs (writeChunk (chunkFile s.rank s.flushCount) s.items order).1)
  refine ⟨_, err, h1, ?_, ?_, _, err', h2⟩
  · have := (C12_incomplete_rejected fs s.rank s.flushCount s.items order n hd hlen hmiss).2
    rw [dataFileName_eq] at this ⊢
    exact this
  · intro hf hw
    rw [Saver.flush, if_pos hf, if_neg (by omega)]
    exact h1

end Logix
