/-
C97: the scores that the Lightning integration returns.
-/
import Verif.Model.LightningInfluence
import Verif.Props.Lightning
import Verif.Props.Tiles
import Verif.Spec.LightningPasses

namespace Logix
open Spec
variable {K : Type}

theorem lightningEpoch_saveAll [Field K] {L : Lib K} {sqrt : K → K} {a : LArgs K} {loader : List (List PyStr × LogArg K)} :
    ∀ {data : List (List PyStr × GLog K)} {o : IFObj K}, lightningEpoch L sqrt a loader o data = saveAll L sqrt loader a.mode true .auto none a.damping o data
  | [], _ => rfl
  | b :: bs, o => by
    unfold lightningEpoch saveAll lightningBatchEnd
    cases computeInfluenceAll L sqrt o b.1 (.dict b.2) loader a.mode true true .auto none a.damping with
    | error e => rfl
    | ok r => exact lightningEpoch_saveAll

theorem computeInfluence_ids [Field K] {L : Lib K} {sqrt : K → K} {s s' : LState K} {srcIds tgtIds : List PyStr} {src tgt : LogArg K} {mode : Mode} {pre : Bool}
    {hessian : Hess} {groups : Option (List PyStr)} {damping : Option K} {r : IFResult K}
    (h : computeInfluence L sqrt s srcIds src tgtIds tgt mode pre hessian groups damping = .ok (s', r)) : r.srcIds = srcIds ∧ r.tgtIds = tgtIds := by
  unfold computeInfluence at h
  repeat' split at h
  all_goals cases h
  exact ⟨rfl, rfl⟩

/-- A trainer that has not yet reached its last epoch makes one pass. -/
theorem influenceLoop_once {t : TrainerLimits} {cur : Nat} (h : t.reached cur false = false) (hmin : t.minEpochs ≤ cur + 1) {fuel : Nat} (hf : 2 ≤ fuel) :
    influenceLoop t fuel cur false = ([.call (.setup { grad := some [.name "log".toList] }), .call (.save false), .batches cur], .stopped) := by
  obtain ⟨fuel, rfl⟩ : ∃ f, fuel = f + 2 := ⟨fuel - 2, by omega⟩
  have h1 : t.reached (cur + 1) true = true := by
    unfold TrainerLimits.reached
    simp [hmin]
  have hd : decide ((cur : Int) ≥ 1 - 1) = true := by simp
  simp only [influenceLoop, h, hd, h1]
  rfl

/-- One call of `influence` is the user's loop over the batches of the data. -/
theorem lightning_influence [Field K] {L : Lib K} {sqrt : K → K} {a : LArgs K} {loader : List (List PyStr × LogArg K)} {t : TrainerLimits} {fuel : Nat} {tr tr' : LTrainer K}
    {data : List (List PyStr × GLog K)} {r : Option (IFResult K)} (h : t.reached tr.cur false = false) (hmin : t.minEpochs ≤ tr.cur + 1) (hf : 2 ≤ fuel)
    (hr : tr.influence L sqrt a loader t fuel data = .ok (tr', r)) :
    saveAll L sqrt loader a.mode true .auto none a.damping tr.infl data = .ok tr'.infl ∧ tr'.cur = tr.cur + 1 ∧ r = tr'.infl.saved.map tr'.infl.heap.deref := by
  unfold LTrainer.influence at hr
  rw [influenceLoop_once h hmin hf] at hr
  simp only [lightningEvents, lightningEpoch_saveAll] at hr
  cases hs : saveAll L sqrt loader a.mode true .auto none a.damping tr.infl data with
  | error e => rw [hs] at hr; cases hr
  | ok o =>
    rw [hs] at hr
    cases hr
    exact ⟨rfl, rfl, rfl⟩

/-- **C97**, the part that holds: the first call of `influence`, on a trainer whose epoch limits allow one more epoch and do not ask for more than one, returns the
scores of one `compute_influence` call with all samples of the data and all samples of the log loader; it does not matter how either is batched. -/
theorem C97_first_partial [Field K] {L : Lib K} {sqrt : K → K} {a : LArgs K} {t : TrainerLimits} {fuel : Nat} {tr tr' : LTrainer K} {s₀ s' : LState K}
    {srcIds tgtIds : List PyStr} {d e : GLog K} {ops : List (StateOp K)} {calls : List (Call K)} {data batches : List (List PyStr × GLog K)} {r : Option (IFResult K)}
    {w : IFResult K} (ht : t.reached tr.cur false = false) (hmin : t.minEpochs ≤ tr.cur + 1) (hf : 2 ≤ fuel)
    (hh : History L sqrt tr.infl []) (hrun : runOps L .init ops = .ok s₀) (hek : s₀.hasAttr nEkfac = false) (hc : ∀ x ∈ calls, x.damping = a.damping)
    (hcalls : serveAll L sqrt s₀ calls = .ok tr.infl.st)
    (h : tr.influence L sqrt a (batches.map fun b => (b.1, .dict b.2)) t fuel data = .ok (tr', r))
    (hw : computeInfluence L sqrt s₀ srcIds (.dict d) tgtIds (.dict e) a.mode true .auto none a.damping = .ok (s', w))
    (hsne : data ≠ []) (hbne : batches ≠ []) (hS : Batches data srcIds d) (hB : Batches batches tgtIds e)
    (hd : Labelled srcIds d) (he : Labelled tgtIds e) (hs : ∀ b ∈ data, Labelled b.1 b.2) (hb : ∀ b ∈ batches, Labelled b.1 b.2)
    (hks : ∀ b ∈ data, Dict.keys b.2 = Dict.keys d) (hkb : ∀ b ∈ batches, Dict.keys b.2 = Dict.keys e) (hk : a.mode = .dot ∨ Dict.keys d = Dict.keys e) :
    ∃ v x, r = some v ∧ v.srcIds = srcIds ∧ v.tgtIds = tgtIds ∧ v.influence.get? ['t', 'o', 't', 'a', 'l'] = some x ∧ w.influence.get? ['t', 'o', 't', 'a', 'l'] = some x := by
  obtain ⟨h1, -, h3⟩ := lightning_influence ht hmin hf h
  have hsv : SavedAre tr'.infl none w := by
    rcases hk with hk | hk
    · rw [hk] at h1 hw
      exact C89_dot hh hrun hek hc hcalls h1 hw hsne hbne hS hB hd he hs hb hks hkb
    · exact C89_modes hh hrun hek hc hcalls h1 hw hsne hbne hS hB hd he hs hb hk hks hkb
  obtain ⟨p, p1, p2, p3, p4⟩ := hsv
  obtain ⟨x, x1, x2⟩ := p4 _ (.inl rfl)
  obtain ⟨e1, e2⟩ := computeInfluence_ids hw
  exact ⟨_, x, by rw [h3, p1]; rfl, by rw [p2, e1], by rw [p3, e2], x1, x2⟩

theorem saveAll_append [Field K] {L : Lib K} {sqrt : K → K} {loader : List (List PyStr × LogArg K)} {mode : Mode} {pre : Bool} {hessian : Hess}
    {groups : Option (List PyStr)} {damping : Option K} : ∀ {xs ys : List (List PyStr × GLog K)} {o : IFObj K},
    saveAll L sqrt loader mode pre hessian groups damping o (xs ++ ys) =
      match saveAll L sqrt loader mode pre hessian groups damping o xs with
      | .error e => .error e
      | .ok o => saveAll L sqrt loader mode pre hessian groups damping o ys
  | [], _, _ => rfl
  | b :: bs, ys, o => by
    simp only [saveAll, List.cons_append]
    cases computeInfluenceAll L sqrt o b.1 (.dict b.2) loader mode pre true hessian groups damping with
    | error e => rfl
    | ok r => exact saveAll_append

/-- The events of a loop that makes `n` more passes: the data `n` times. -/
theorem loop_passes [Field K] {L : Lib K} {sqrt : K → K} {a : LArgs K} {loader : List (List PyStr × LogArg K)} {t : TrainerLimits} {data : List (List PyStr × GLog K)} :
    ∀ (n : Nat) {fuel cur : Nat} {stop : Bool} {o : IFObj K}, (stop = true ∨ 0 < n) → (stop = false → n ≠ 0) → (stop = true → n = 0 ∨ cur + n ≤ t.minEpochs) →
      (stop = false → n = 1 ∨ cur + n ≤ t.minEpochs) → (∀ m, t.maxEpochs = some m → cur + n ≤ m) → (t.maxEpochs = some (cur + n) ∨ t.minEpochs ≤ cur + n) → n < fuel →
      lightningEvents L sqrt a loader data o (influenceLoop t fuel cur stop).1 = saveAll L sqrt loader a.mode true .auto none a.damping o (List.replicate n data).flatten ∧
      ((influenceLoop t fuel cur stop).1.countP fun e => match e with | .batches _ => true | _ => false) = n
  | 0, fuel, cur, stop, o, h0, _, _, _, _, hend, hf => by
    obtain ⟨fuel, rfl⟩ : ∃ f, fuel = f + 1 := ⟨fuel - 1, by omega⟩
    have hs : stop = true := h0.resolve_right (by omega)
    subst hs
    have hr : t.reached cur true = true := by
      unfold TrainerLimits.reached
      rcases hend with h | h
      · simp [h]
      · have : t.minEpochs ≤ cur := h
        simp [this]
    simp only [influenceLoop, hr, if_true, lightningEvents]
    exact ⟨rfl, rfl⟩
  | n + 1, fuel, cur, stop, o, _, _, h2, h3, hmax, hend, hf => by
    obtain ⟨fuel, rfl⟩ : ∃ f, fuel = f + 1 := ⟨fuel - 1, by omega⟩
    have hr : t.reached cur stop = false := by
      unfold TrainerLimits.reached
      rw [Bool.or_eq_false_iff]
      constructor
      · cases hm : t.maxEpochs with
        | none => rfl
        | some m =>
          have := hmax m hm
          simp; omega
      · cases stop with
        | false => rfl
        | true =>
          rcases h2 rfl with h | h
          · omega
          · simp; omega
    have hd : decide ((cur : Int) ≥ 1 - 1) = true := by simp
    have hadd : cur + (n + 1) = cur + 1 + n := by omega
    have ih := fun o => loop_passes (L := L) (sqrt := sqrt) (a := a) (loader := loader) (t := t) (data := data) n (fuel := fuel) (cur := cur + 1) (stop := true) (o := o)
      (.inl rfl) (fun h => by cases h) (fun _ => by
        cases stop with
        | false => rcases h3 rfl with h | h <;> omega
        | true => rcases h2 rfl with h | h <;> omega) (fun h => by cases h) (fun m hm => by have := hmax m hm; omega) (by rw [hadd] at hend; exact hend) (by omega)
    simp only [influenceLoop, hr, hd, Bool.false_eq_true, if_false]
    constructor
    · simp only [List.map_cons, List.map_nil, List.cons_append, List.nil_append, lightningEvents, lightningEpoch_saveAll, List.replicate_succ, List.flatten_cons,
        saveAll_append]
      cases saveAll L sqrt loader a.mode true .auto none a.damping o data with
      | error e => rfl
      | ok o => exact (ih o).1
    · simp only [List.map_cons, List.map_nil, List.cons_append, List.nil_append, List.countP_cons, (ih o).2]
      simp

/-- One call of `influence` is the user's loop over the batches of the data, as often as there are passes. -/
theorem lightning_passes [Field K] {L : Lib K} {sqrt : K → K} {a : LArgs K} {loader : List (List PyStr × LogArg K)} {t : TrainerLimits} {fuel n : Nat} {tr tr' : LTrainer K}
    {data : List (List PyStr × GLog K)} {r : Option (IFResult K)} (hp : Passes t tr.cur n) (hf : n < fuel)
    (hr : tr.influence L sqrt a loader t fuel data = .ok (tr', r)) :
    saveAll L sqrt loader a.mode true .auto none a.damping tr.infl (List.replicate n data).flatten = .ok tr'.infl ∧ tr'.cur = tr.cur + n ∧
      r = tr'.infl.saved.map tr'.infl.heap.deref := by
  obtain ⟨hn, h1, h2, h3⟩ := hp
  obtain ⟨e1, e2⟩ := loop_passes (L := L) (sqrt := sqrt) (a := a) (loader := loader) (data := data) (o := tr.infl) n (fuel := fuel) (cur := tr.cur) (stop := false)
    (.inr hn) (fun _ => by omega) (fun h => by cases h) (fun _ => by rcases h2 with h | h <;> omega) h1 h3 hf
  unfold LTrainer.influence at hr
  simp only [e1] at hr
  cases hs : saveAll L sqrt loader a.mode true .auto none a.damping tr.infl (List.replicate n data).flatten with
  | error e => rw [hs] at hr; cases hr
  | ok o =>
    rw [hs] at hr
    cases hr
    exact ⟨rfl, congrArg (tr.cur + ·) e2, rfl⟩

/-- **C97**, every epoch limits: the first call of `influence` makes as many passes as the limits ask for, and returns every sample of the data as many times:
the scores of one `compute_influence` call with the data repeated that often. -/
theorem C97_passes_partial [Field K] {L : Lib K} {sqrt : K → K} {a : LArgs K} {t : TrainerLimits} {fuel n : Nat} {tr tr' : LTrainer K} {s₀ s' : LState K}
    {srcIds tgtIds : List PyStr} {d e : GLog K} {ops : List (StateOp K)} {calls : List (Call K)} {data batches : List (List PyStr × GLog K)} {r : Option (IFResult K)}
    {w : IFResult K} (hp : Passes t tr.cur n) (hf : n < fuel)
    (hh : History L sqrt tr.infl []) (hrun : runOps L .init ops = .ok s₀) (hek : s₀.hasAttr nEkfac = false) (hc : ∀ x ∈ calls, x.damping = a.damping)
    (hcalls : serveAll L sqrt s₀ calls = .ok tr.infl.st)
    (h : tr.influence L sqrt a (batches.map fun b => (b.1, .dict b.2)) t fuel data = .ok (tr', r))
    (hw : computeInfluence L sqrt s₀ srcIds (.dict d) tgtIds (.dict e) a.mode true .auto none a.damping = .ok (s', w))
    (hsne : data ≠ []) (hbne : batches ≠ []) (hS : Batches (List.replicate n data).flatten srcIds d) (hB : Batches batches tgtIds e)
    (hd : Labelled srcIds d) (he : Labelled tgtIds e) (hs : ∀ b ∈ data, Labelled b.1 b.2) (hb : ∀ b ∈ batches, Labelled b.1 b.2)
    (hks : ∀ b ∈ data, Dict.keys b.2 = Dict.keys d) (hkb : ∀ b ∈ batches, Dict.keys b.2 = Dict.keys e) (hk : a.mode = .dot ∨ Dict.keys d = Dict.keys e) :
    tr'.cur = tr.cur + n ∧
    ∃ v x, r = some v ∧ v.srcIds = (List.replicate n (data.flatMap (·.1))).flatten ∧ v.srcIds = srcIds ∧ v.tgtIds = tgtIds ∧
      v.influence.get? ['t', 'o', 't', 'a', 'l'] = some x ∧ w.influence.get? ['t', 'o', 't', 'a', 'l'] = some x := by
  obtain ⟨h1, h2, h3⟩ := lightning_passes hp hf h
  have hmem : ∀ b ∈ (List.replicate n data).flatten, b ∈ data := by
    intro b hb
    obtain ⟨l, hl, hb⟩ := List.mem_flatten.1 hb
    rw [List.eq_of_mem_replicate hl] at hb
    exact hb
  have hne : (List.replicate n data).flatten ≠ [] := by
    obtain ⟨n, rfl⟩ : ∃ k, n = k + 1 := ⟨n - 1, by have := hp.1; omega⟩
    simp [List.replicate_succ, hsne]
  have hsv : SavedAre tr'.infl none w := by
    rcases hk with hk | hk
    · rw [hk] at h1 hw
      exact C89_dot hh hrun hek hc hcalls h1 hw hne hbne hS hB hd he (fun b hb => hs b (hmem b hb)) hb (fun b hb => hks b (hmem b hb)) hkb
    · exact C89_modes hh hrun hek hc hcalls h1 hw hne hbne hS hB hd he (fun b hb => hs b (hmem b hb)) hb hk (fun b hb => hks b (hmem b hb)) hkb
  obtain ⟨p, p1, p2, p3, p4⟩ := hsv
  obtain ⟨x, x1, x2⟩ := p4 _ (.inl rfl)
  obtain ⟨e1, e2⟩ := computeInfluence_ids hw
  refine ⟨h2, _, x, by rw [h3, p1]; rfl, ?_, by rw [p2, e1], by rw [p3, e2], x1, x2⟩
  rw [p2, e1, hS.1, List.flatMap_def, List.map_flatten, List.map_replicate]
  clear * -
  induction n with
  | zero => rfl
  | succ n ih => simp only [List.replicate_succ, List.flatten_cons, List.flatten_append, ih, List.flatMap_def]

end Logix
