/-
C69-C71, C80, C81: configuration.
-/
import Verif.Spec.Config

namespace Logix
open Spec

theorem joined_iff {root project dir : PyStr} : Joined root project dir ↔ dir = osPathJoin root project := by
  have h1 : ['/'] <+: project ↔ project.head? = some '/' := by
    cases project with
    | nil => simp
    | cons c t => simp [List.cons_prefix_cons, eq_comm]
  have h2 : ['/'] <:+ root ↔ root.getLast? = some '/' := by
    constructor
    · rintro ⟨t, rfl⟩; simp
    · intro h
      obtain ⟨t, ht⟩ := List.getLast?_eq_some_iff.1 h
      exact ⟨t, ht.symm⟩
  unfold Joined osPathJoin
  rw [h1, h2]
  by_cases a : project.head? = some '/'
  · simp [a]
  · by_cases b : root = []
    · simp [a, b]
    · by_cases c : root.getLast? = some '/' <;> simp [a, b, c]

theorem oneLogDir_iff {c : ConfigObj} : OneLogDir c ↔ ∃ root project, value c (.top "root_dir") = some (.str root) ∧
    value c (.top "project") = some (.str project) ∧ value c (.top "log_dir") = some (.str (osPathJoin root project)) ∧
    value c (.sub "logging" "log_dir") = some (.str (osPathJoin root project)) := by
  constructor
  · rintro ⟨r, p, d, h1, h2, h3, h4, h5⟩
    rw [joined_iff] at h3
    subst h3
    exact ⟨r, p, h1, h2, h4, h5⟩
  · rintro ⟨r, p, h1, h2, h4, h5⟩
    exact ⟨r, p, _, h1, h2, joined_iff.2 rfl, h4, h5⟩

theorem loadSub_ok (items : List (PyStr × Yaml)) : ∀ (attrs : List (PyStr × Yaml)), (items.map Prod.fst).Nodup →
    (∀ kv ∈ items, kv.2.isDict = false) →
    ∃ a', loadSub attrs items = (a', .ok ()) ∧ ∀ k, Dict.get? a' k = (Dict.get? items k).or (Dict.get? attrs k) := by
  induction items with
  | nil => intro attrs _ _; exact ⟨attrs, rfl, fun k => rfl⟩
  | cons kv items ih =>
    obtain ⟨k, v⟩ := kv
    intro attrs hn hd
    simp only [List.map_cons, List.nodup_cons] at hn
    have hv := hd (k, v) (by simp)
    obtain ⟨a', h1, h2⟩ := ih (Dict.set attrs k v) hn.2 (fun x hx => hd x (by simp [hx]))
    refine ⟨a', ?_, ?_⟩
    · cases v with
      | dict d => simp [Yaml.isDict] at hv
      | str s => simpa [loadSub] using h1
      | atom n => simpa [loadSub] using h1
    · intro k'
      rw [h2, Dict.get?_set, Dict.get?_cons]
      by_cases e : k = k'
      · subst e
        rw [(Dict.get?_eq_none_iff items k).2 hn.1]
        simp
      · simp [e]

theorem loadFrom_ok (items : List (PyStr × Yaml)) : ∀ (c : ConfigObj), (items.map Prod.fst).Nodup →
    (∀ k d, (k, .dict d) ∈ items → (∃ cls a, Dict.get? c k = some (.inst cls a)) ∧ (d.map Prod.fst).Nodup ∧
      ∀ kv ∈ d, kv.2.isDict = false) →
    ∃ c', c.loadFrom items = (c', .ok ()) ∧ ∀ k, match Dict.get? items k with
      | none => Dict.get? c' k = Dict.get? c k
      | some (.dict d) => ∃ cls a a', Dict.get? c k = some (.inst cls a) ∧ Dict.get? c' k = some (.inst cls a') ∧
          ∀ f, Dict.get? a' f = (Dict.get? d f).or (Dict.get? a f)
      | some y => Dict.get? c' k = some (.plain y) := by
  induction items with
  | nil => intro c _ _; exact ⟨c, rfl, fun k => rfl⟩
  | cons kv items ih =>
    obtain ⟨k, v⟩ := kv
    intro c hn hd
    simp only [List.map_cons, List.nodup_cons] at hn
    have hk : Dict.get? items k = none := (Dict.get?_eq_none_iff items k).2 hn.1
    have hnext : ∀ w : CVal, ∀ k' d, (k', .dict d) ∈ items → (∃ cls a, Dict.get? (Dict.set c k w) k' = some (.inst cls a)) ∧
        (d.map Prod.fst).Nodup ∧ ∀ kv ∈ d, kv.2.isDict = false := by
      intro w k' d hm
      have hne : k ≠ k' := by
        intro e; subst e
        exact hn.1 (List.mem_map.2 ⟨_, hm, rfl⟩)
      rw [Dict.get?_set_ne _ _ hne]
      exact hd k' d (by simp [hm])
    have hplain : ∀ y : Yaml, y.isDict = false → v = y →
        ∃ c', c.loadFrom ((k, v) :: items) = (c', .ok ()) ∧ ∀ k', match Dict.get? ((k, v) :: items) k' with
        | none => Dict.get? c' k' = Dict.get? c k'
        | some (.dict d) => ∃ cls a a', Dict.get? c k' = some (.inst cls a) ∧ Dict.get? c' k' = some (.inst cls a') ∧
          ∀ f, Dict.get? a' f = (Dict.get? d f).or (Dict.get? a f)
        | some y => Dict.get? c' k' = some (.plain y) := by
      intro y hy e
      subst e
      obtain ⟨c', h1, h2⟩ := ih (Dict.set c k (.plain v)) hn.2 (hnext _)
      refine ⟨c', by cases v <;> simp_all [ConfigObj.loadFrom, Yaml.isDict], ?_⟩
      intro k'
      have := h2 k'
      rw [Dict.get?_cons]
      by_cases e : k = k'
      · subst e
        rw [hk] at this
        rw [if_pos rfl]
        simp only [Dict.get?_set_self] at this
        cases v with
        | dict d => simp [Yaml.isDict] at hy
        | str s => exact this
        | atom n => exact this
      · rw [if_neg e]
        rw [Dict.get?_set_ne _ _ e] at this
        exact this
    cases v with
    | str s => exact hplain _ rfl rfl
    | atom n => exact hplain _ rfl rfl
    | dict d =>
      obtain ⟨⟨cls, a, hca⟩, hdn, hdd⟩ := hd k d (by simp)
      obtain ⟨a', g1, g2⟩ := loadSub_ok d a hdn hdd
      obtain ⟨c', h1, h2⟩ := ih (Dict.set c k (.inst cls a')) hn.2 (hnext _)
      refine ⟨c', by simp only [ConfigObj.loadFrom, hca, g1, h1], ?_⟩
      intro k'
      have := h2 k'
      rw [Dict.get?_cons]
      by_cases e : k = k'
      · subst e
        rw [hk] at this
        rw [if_pos rfl]
        simp only [Dict.get?_set_self] at this
        exact ⟨cls, a, a', hca, this, g2⟩
      · rw [if_neg e]
        rw [Dict.get?_set_ne _ _ e] at this
        exact this

theorem asdictSub_ok (attrs : List (PyStr × Yaml)) (fs : List (PyStr × Option Yaml))
    (h : ∀ f ∈ fs, ∃ y, Dict.get? attrs f.1 = some y ∧ y.isDict = false) :
    ∃ d, asdictSub attrs fs = .ok d ∧ d.map Prod.fst = fs.map Prod.fst ∧
      ∀ kv ∈ d, Dict.get? attrs kv.1 = some kv.2 ∧ kv.2.isDict = false := by
  induction fs with
  | nil => exact ⟨[], rfl, rfl, by simp⟩
  | cons f fs ih =>
    obtain ⟨n, dv⟩ := f
    obtain ⟨y, h1, h2⟩ := h (n, dv) (by simp)
    obtain ⟨d, g1, g2, g3⟩ := ih (fun x hx => h x (by simp [hx]))
    refine ⟨(n, y) :: d, by simp only [asdictSub, h1, g1], by simp [g2], ?_⟩
    intro kv hkv
    rcases List.mem_cons.1 hkv with rfl | hkv
    · exact ⟨h1, h2⟩
    · exact g3 kv hkv

theorem fields_nodup (cls : SubClass) : (cls.fields.map Prod.fst).Nodup := by cases cls <;> decide

/-- What `asdict` gives for a good section: the section's settings. -/
theorem asdictSub_get {attrs : List (PyStr × Yaml)} {cls : SubClass}
    (h : ∀ f ∈ cls.fields, ∃ y, Dict.get? attrs f.1 = some y ∧ y.isDict = false) :
    ∃ d, asdictSub attrs cls.fields = .ok d ∧ (d.map Prod.fst).Nodup ∧ (∀ kv ∈ d, kv.2.isDict = false) ∧
      ∀ f ∈ cls.fields.map Prod.fst, Dict.get? d f = Dict.get? attrs f := by
  obtain ⟨d, h1, h2, h3⟩ := asdictSub_ok attrs cls.fields h
  have hn : (d.map Prod.fst).Nodup := by rw [h2]; exact fields_nodup cls
  refine ⟨d, h1, hn, fun kv hkv => (h3 kv hkv).2, ?_⟩
  intro f hf
  rw [← h2] at hf
  obtain ⟨kv, hkv, rfl⟩ := List.mem_map.1 hf
  rw [(h3 kv hkv).1]
  exact Dict.get?_of_mem d hn hkv

/-- The parts of a legal configuration. -/
theorem Spec.Legal.parts {c : ConfigObj} (h : Legal c) :
    ∃ p r ld g l, Dict.get? c fProject = some (.plain (.str p)) ∧ Dict.get? c fRootDir = some (.plain (.str r)) ∧
      Dict.get? c fLogDir = some (.plain ld) ∧ ld.isDict = false ∧ Dict.get? c fLogging = some (.inst .logging g) ∧
      Dict.get? c fLora = some (.inst .lora l) ∧
      (∀ f ∈ SubClass.logging.fields, ∃ y, Dict.get? g f.1 = some y ∧ y.isDict = false) ∧
      (∀ f ∈ SubClass.lora.fields, ∃ y, Dict.get? l f.1 = some y ∧ y.isDict = false) := by
  have key : ∀ (n : String) (y : Yaml), value c (.top n) = some y → Dict.get? c n.toList = some (.plain y) := by
    intro n y hv
    simp only [value] at hv
    split at hv
    · next z hz => rw [hz]; cases hv; rfl
    · cases hv
  obtain ⟨p, hp⟩ := h.project
  obtain ⟨r, hr⟩ := h.rootDir
  obtain ⟨ld, hl, hl'⟩ := h.logDir
  obtain ⟨g, hg, hg'⟩ := h.logging
  obtain ⟨l, hlo, hlo'⟩ := h.lora
  exact ⟨p, r, ld, g, l, key _ _ hp, key _ _ hr, key _ _ hl, hl', hg, hlo, hg', hlo'⟩

/-- What is written for a legal configuration. -/
theorem save_ok {c : ConfigObj} {p r : PyStr} {ld : Yaml} {g l : List (PyStr × Yaml)}
    (hp : Dict.get? c fProject = some (.plain (.str p))) (hr : Dict.get? c fRootDir = some (.plain (.str r)))
    (hld : Dict.get? c fLogDir = some (.plain ld)) (hg : Dict.get? c fLogging = some (.inst .logging g))
    (hl : Dict.get? c fLora = some (.inst .lora l)) {gd lod : List (PyStr × Yaml)}
    (hgd : asdictSub g SubClass.logging.fields = .ok gd) (hlod : asdictSub l SubClass.lora.fields = .ok lod) :
    c.save = .ok (.dict [(fProject, .str p), (fLogDir, ld), (fRootDir, .str r), (fLogging, .dict gd), (fLora, .dict lod)]) := by
  simp only [ConfigObj.save, asdictConfig, configFields, hp, hr, hld, hg, hl, hgd, hlod]

/-- **C69.** The file written for any legal configuration can be loaded into any legal configuration object, in whatever order the YAML
writer put its keys, and afterwards every setting has the saved value. -/
theorem C69_save_load (c c' : ConfigObj) (h : Legal c) (hd : OneLogDir c) (h' : Legal c') :
    ∃ d, c.save = .ok (.dict d) ∧ ∀ e, SameFile d e → ∃ c'', c'.load (some (.dict e)) = (c'', .ok ()) ∧
      ∀ s ∈ allSettings, value c'' s = value c s ∧ (value c s).isSome := by
  obtain ⟨p, r, ld, g, l, hp, hr, hld, hldd, hg, hl, hgf, hlf⟩ := h.parts
  obtain ⟨p', r', ld', g', l', hp', hr', hld', _, hg', hl', _, _⟩ := h'.parts
  obtain ⟨gd, g1, g2, g3, g4⟩ := asdictSub_get hgf
  obtain ⟨lod, l1, l2, l3, l4⟩ := asdictSub_get hlf
  have hsave := save_ok hp hr hld hg hl g1 l1
  refine ⟨_, hsave, ?_⟩
  intro e he
  have ep : Dict.get? e fProject = some (.str p) := by
    simpa [Dict.get?] using he.same fProject
  have eld : Dict.get? e fLogDir = some ld := by
    have := he.same fLogDir
    simp only [Dict.get?_cons, if_neg (show fProject ≠ fLogDir by decide), if_true] at this
    cases ld with
    | dict _ => simp [Yaml.isDict] at hldd
    | str _ => exact this
    | atom _ => exact this
  have er : Dict.get? e fRootDir = some (.str r) := by
    have := he.same fRootDir
    simpa only [Dict.get?_cons, if_neg (show fProject ≠ fRootDir by decide), if_neg (show fLogDir ≠ fRootDir by decide), if_true]
      using this
  obtain ⟨gb, eg, gbn, gbs⟩ : ∃ b, Dict.get? e fLogging = some (.dict b) ∧ (b.map Prod.fst).Nodup ∧
      ∀ k', Dict.get? b k' = Dict.get? gd k' := by
    have := he.same fLogging
    simpa only [Dict.get?_cons, if_neg (show fProject ≠ fLogging by decide), if_neg (show fLogDir ≠ fLogging by decide),
      if_neg (show fRootDir ≠ fLogging by decide), if_true] using this
  obtain ⟨lb, el, lbn, lbs⟩ : ∃ b, Dict.get? e fLora = some (.dict b) ∧ (b.map Prod.fst).Nodup ∧
      ∀ k', Dict.get? b k' = Dict.get? lod k' := by
    have := he.same fLora
    simpa only [Dict.get?_cons, if_neg (show fProject ≠ fLora by decide), if_neg (show fLogDir ≠ fLora by decide),
      if_neg (show fRootDir ≠ fLora by decide), if_neg (show fLogging ≠ fLora by decide), if_true] using this
  have nodict : ∀ {b d : List (PyStr × Yaml)}, (b.map Prod.fst).Nodup → (∀ k', Dict.get? b k' = Dict.get? d k') →
      (∀ kv ∈ d, kv.2.isDict = false) → ∀ kv ∈ b, kv.2.isDict = false := by
    intro b d hb hbd hdd kv hkv
    have := Dict.get?_of_mem b hb (k := kv.1) (v := kv.2) hkv
    rw [hbd] at this
    exact hdd _ (Dict.mem_of_get? _ this)
  have eothers : ∀ k, k ≠ fProject → k ≠ fLogDir → k ≠ fRootDir → k ≠ fLogging → k ≠ fLora → Dict.get? e k = none := by
    intro k k1 k2 k3 k4 k5
    have := he.same k
    simpa only [Dict.get?_cons, if_neg k1.symm, if_neg k2.symm, if_neg k3.symm, if_neg k4.symm, if_neg k5.symm, Dict.get?_nil]
      using this
  obtain ⟨c1, q1, q2⟩ := loadFrom_ok e c' he.keys (by
    intro k d hm
    have hget := Dict.get?_of_mem e he.keys hm
    by_cases k4 : k = fLogging
    · subst k4
      rw [eg] at hget
      cases hget
      exact ⟨⟨_, _, hg'⟩, gbn, nodict gbn gbs g3⟩
    · by_cases k5 : k = fLora
      · subst k5
        rw [el] at hget
        cases hget
        exact ⟨⟨_, _, hl'⟩, lbn, nodict lbn lbs l3⟩
      · exfalso
        by_cases k1 : k = fProject
        · subst k1; rw [ep] at hget; cases hget
        · by_cases k2 : k = fLogDir
          · subst k2; rw [eld] at hget; cases hget; simp [Yaml.isDict] at hldd
          · by_cases k3 : k = fRootDir
            · subst k3; rw [er] at hget; cases hget
            · rw [eothers k k1 k2 k3 k4 k5] at hget; cases hget)
  have c1p : Dict.get? c1 fProject = some (.plain (.str p)) := by have := q2 fProject; rw [ep] at this; exact this
  have c1r : Dict.get? c1 fRootDir = some (.plain (.str r)) := by have := q2 fRootDir; rw [er] at this; exact this
  obtain ⟨ga, c1g, c1ga⟩ : ∃ a', Dict.get? c1 fLogging = some (.inst .logging a') ∧
      ∀ f, Dict.get? a' f = (Dict.get? gd f).or (Dict.get? g' f) := by
    have := q2 fLogging
    rw [eg] at this
    obtain ⟨cls, a, a', x1, x2, x3⟩ := this
    rw [hg'] at x1
    cases x1
    exact ⟨a', x2, fun f => by rw [x3, gbs]⟩
  obtain ⟨la, c1l, c1la⟩ : ∃ a', Dict.get? c1 fLora = some (.inst .lora a') ∧
      ∀ f, Dict.get? a' f = (Dict.get? lod f).or (Dict.get? l' f) := by
    have := q2 fLora
    rw [el] at this
    obtain ⟨cls, a, a', x1, x2, x3⟩ := this
    rw [hl'] at x1
    cases x1
    exact ⟨a', x2, fun f => by rw [x3, lbs]⟩
  have hne1 : fLogDir ≠ fLogging := by decide
  refine ⟨Dict.set (Dict.set c1 fLogDir (.plain (.str (osPathJoin r p)))) fLogging
      (.inst .logging (Dict.set ga fLogDir (.str (osPathJoin r p)))), ?_, ?_⟩
  · simp only [ConfigObj.load, q1, ConfigObj.configureLogDir, c1r, c1p, Dict.get?_set_ne _ _ hne1, c1g]
  · obtain ⟨root, project, o1, o2, o3, o4⟩ := oneLogDir_iff.1 hd
    have hroot : root = r := by
      have : value c (.top "root_dir") = some (.str r) := by
        show (match Dict.get? c fRootDir with | some (.plain y) => some y | _ => none) = _
        rw [hr]
      rw [this] at o1; cases o1; rfl
    have hproj : project = p := by
      have : value c (.top "project") = some (.str p) := by
        show (match Dict.get? c fProject with | some (.plain y) => some y | _ => none) = _
        rw [hp]
      rw [this] at o2; cases o2; rfl
    subst hroot hproj
    have hgetG : ∀ f ∈ SubClass.logging.fields.map Prod.fst, ∃ y, Dict.get? g f = some y := by
      intro f hf
      obtain ⟨kv, hkv, rfl⟩ := List.mem_map.1 hf
      obtain ⟨y, hy, _⟩ := hgf kv hkv
      exact ⟨y, hy⟩
    have hgetL : ∀ f ∈ SubClass.lora.fields.map Prod.fst, ∃ y, Dict.get? l f = some y := by
      intro f hf
      obtain ⟨kv, hkv, rfl⟩ := List.mem_map.1 hf
      obtain ⟨y, hy, _⟩ := hlf kv hkv
      exact ⟨y, hy⟩
    have top : ∀ (n : String) (y : Yaml), n.toList ≠ fLogDir → n.toList ≠ fLogging → Dict.get? c1 n.toList = some (.plain y) →
        Dict.get? c n.toList = some (.plain y) → value (Dict.set (Dict.set c1 fLogDir (.plain (.str (osPathJoin root project)))) fLogging
          (.inst .logging (Dict.set ga fLogDir (.str (osPathJoin root project))))) (.top n) = value c (.top n) ∧
          (value c (.top n)).isSome := by
      intro n y n1 n2 n3 n4
      simp only [value, Dict.get?_set_ne _ _ (Ne.symm n2), Dict.get?_set_ne _ _ (Ne.symm n1), n3, n4]
      exact ⟨trivial, rfl⟩
    have logs : ∀ n : String, n.toList ∈ SubClass.logging.fields.map Prod.fst → n.toList ≠ fLogDir →
        value (Dict.set (Dict.set c1 fLogDir (.plain (.str (osPathJoin root project)))) fLogging
          (.inst .logging (Dict.set ga fLogDir (.str (osPathJoin root project))))) (.sub "logging" n) = value c (.sub "logging" n) ∧
          (value c (.sub "logging" n)).isSome := by
      intro n hn hnl
      obtain ⟨y, hy⟩ := hgetG _ hn
      have e1 : value c (.sub "logging" n) = some y := by
        show (match Dict.get? c fLogging with | some (.inst _ a) => Dict.get? a n.toList | _ => none) = _
        rw [hg]; exact hy
      rw [e1]
      refine ⟨?_, rfl⟩
      show (match Dict.get? (Dict.set (Dict.set c1 fLogDir _) fLogging _) fLogging with
        | some (.inst _ a) => Dict.get? a n.toList | _ => none) = _
      rw [Dict.get?_set_self]
      show Dict.get? (Dict.set ga fLogDir _) n.toList = _
      rw [Dict.get?_set_ne _ _ (Ne.symm hnl), c1ga, g4 _ hn, hy]; rfl
    have lors : ∀ n : String, n.toList ∈ SubClass.lora.fields.map Prod.fst →
        value (Dict.set (Dict.set c1 fLogDir (.plain (.str (osPathJoin root project)))) fLogging
          (.inst .logging (Dict.set ga fLogDir (.str (osPathJoin root project))))) (.sub "lora" n) = value c (.sub "lora" n) ∧
          (value c (.sub "lora" n)).isSome := by
      intro n hn
      obtain ⟨y, hy⟩ := hgetL _ hn
      have e1 : value c (.sub "lora" n) = some y := by
        show (match Dict.get? c fLora with | some (.inst _ a) => Dict.get? a n.toList | _ => none) = _
        rw [hl]; exact hy
      rw [e1]
      refine ⟨?_, rfl⟩
      show (match Dict.get? (Dict.set (Dict.set c1 fLogDir _) fLogging _) fLora with
        | some (.inst _ a) => Dict.get? a n.toList | _ => none) = _
      rw [Dict.get?_set_ne _ _ (show fLogging ≠ fLora by decide), Dict.get?_set_ne _ _ (show fLogDir ≠ fLora by decide), c1l]
      show Dict.get? la n.toList = _
      rw [c1la, l4 _ hn, hy]; rfl
    intro s hs
    simp only [allSettings, List.mem_cons, List.not_mem_nil, or_false] at hs
    rcases hs with rfl | rfl | rfl | rfl | rfl | rfl | rfl | rfl | rfl | rfl | rfl | rfl
    · exact top _ _ (by decide) (by decide) c1p hp
    · rw [o3]
      refine ⟨?_, rfl⟩
      show (match Dict.get? (Dict.set (Dict.set c1 fLogDir _) fLogging _) fLogDir with | some (.plain y) => some y | _ => none) = _
      rw [Dict.get?_set_ne _ _ (Ne.symm hne1), Dict.get?_set_self]
    · exact top _ _ (by decide) (by decide) c1r hr
    · rw [o4]
      refine ⟨?_, rfl⟩
      show (match Dict.get? (Dict.set (Dict.set c1 fLogDir _) fLogging _) fLogging with
        | some (.inst _ a) => Dict.get? a fLogDir | _ => none) = _
      rw [Dict.get?_set_self]
      exact Dict.get?_set_self _ _ _
    · exact logs _ (by decide) (by decide)
    · exact logs _ (by decide) (by decide)
    · exact logs _ (by decide) (by decide)
    · exact logs _ (by decide) (by decide)
    · exact lors _ (by decide)
    · exact lors _ (by decide)
    · exact lors _ (by decide)
    · exact lors _ (by decide)

/-! ### C70 -/

theorem value_top {c : ConfigObj} {n : String} {y : Yaml} (h : Dict.get? c n.toList = some (.plain y)) : value c (.top n) = some y := by
  simp [value, h]

theorem value_sub {c : ConfigObj} {s n : String} {cls : SubClass} {a : List (PyStr × Yaml)}
    (h : Dict.get? c s.toList = some (.inst cls a)) : value c (.sub s n) = Dict.get? a n.toList := by
  simp [value, h]

theorem configureLogDir_spec {c c' : ConfigObj} (h : c.configureLogDir = (c', .ok ())) :
    OneLogDir c' ∧ (∀ k, k ≠ fLogDir → k ≠ fLogging → Dict.get? c' k = Dict.get? c k) ∧
      ∃ cls a y, Dict.get? c fLogging = some (.inst cls a) ∧ Dict.get? c' fLogging = some (.inst cls (Dict.set a fLogDir y)) ∧
        y.isDict = false ∧ Dict.get? c' fLogDir = some (.plain y) := by
  unfold ConfigObj.configureLogDir at h
  split at h
  · next root project hr hp =>
    dsimp only at h
    have hne : fLogDir ≠ fLogging := by decide
    rw [Dict.get?_set_ne _ _ hne] at h
    split at h
    · next cls attrs hg =>
      simp only [Prod.mk.injEq, and_true] at h
      subst h
      have keep : ∀ k, k ≠ fLogDir → k ≠ fLogging → Dict.get? (Dict.set (Dict.set c fLogDir
          (.plain (.str (osPathJoin root project)))) fLogging (.inst cls (Dict.set attrs fLogDir (.str (osPathJoin root project))))) k =
          Dict.get? c k := by
        intro k k1 k2
        rw [Dict.get?_set_ne _ _ (Ne.symm k2), Dict.get?_set_ne _ _ (Ne.symm k1)]
      refine ⟨oneLogDir_iff.2 ⟨root, project, ?_, ?_, ?_, ?_⟩, keep, cls, attrs, .str (osPathJoin root project), hg, ?_, rfl, ?_⟩
      · exact value_top (n := "root_dir") (by rw [← hr]; exact keep _ (by decide) (by decide))
      · exact value_top (n := "project") (by rw [← hp]; exact keep _ (by decide) (by decide))
      · refine value_top (n := "log_dir") ?_
        show Dict.get? _ fLogDir = _
        rw [Dict.get?_set_ne _ _ hne.symm, Dict.get?_set_self]
      · exact (value_sub (s := "logging") (n := "log_dir") (Dict.get?_set_self _ fLogging _)).trans (Dict.get?_set_self _ fLogDir _)
      · exact Dict.get?_set_self _ _ _
      · rw [Dict.get?_set_ne _ _ hne.symm, Dict.get?_set_self]
    · simp at h
  · simp at h

theorem setLogging_oneLogDir {c c' : ConfigObj} {a : List (PyStr × Yaml)} (h : OneLogDir c) (hs : c.setLogging a = (c', .ok ())) :
    OneLogDir c' := by
  rw [oneLogDir_iff] at h ⊢
  obtain ⟨root, project, h1, h2, h3, h4⟩ := h
  unfold ConfigObj.setLogging at hs
  split at hs
  · next y hy =>
    simp only [Prod.mk.injEq, and_true] at hs
    subst hs
    have hy' : y = .str (osPathJoin root project) := by
      rw [value_top (n := "log_dir") hy] at h3
      exact Option.some.inj h3
    subst hy'
    have keep : ∀ n : String, fLogging ≠ n.toList →
        value (Dict.set c fLogging (.inst .logging (Dict.set a fLogDir (.str (osPathJoin root project))))) (.top n) = value c (.top n) := by
      intro n hn; simp only [value, Dict.get?_set_ne _ _ hn]
    refine ⟨root, project, by rw [keep _ (by decide)]; exact h1, by rw [keep _ (by decide)]; exact h2,
      by rw [keep _ (by decide)]; exact h3, ?_⟩
    exact (value_sub (s := "logging") (n := "log_dir") (Dict.get?_set_self _ fLogging _)).trans (Dict.get?_set_self _ fLogDir _)
  · simp at hs

theorem setLora_oneLogDir {c : ConfigObj} (a : List (PyStr × Yaml)) (h : OneLogDir c) : OneLogDir (c.setLora a) := by
  rw [oneLogDir_iff] at h ⊢
  obtain ⟨root, project, h1, h2, h3, h4⟩ := h
  have keep : ∀ k, fLora ≠ k → Dict.get? (c.setLora a) k = Dict.get? c k := by
    intro k hk; exact Dict.get?_set_ne _ _ hk
  refine ⟨root, project, ?_, ?_, ?_, ?_⟩
  · rw [← h1]; simp only [value]; rw [keep _ (by decide)]
  · rw [← h2]; simp only [value]; rw [keep _ (by decide)]
  · rw [← h3]; simp only [value]; rw [keep _ (by decide)]
  · rw [← h4]; simp only [value]; rw [keep _ (by decide)]

theorem load_oneLogDir {c c' : ConfigObj} {f : Option Yaml} (h : c.load f = (c', .ok ())) : OneLogDir c' := by
  unfold ConfigObj.load at h
  split at h
  · simp at h
  · split at h
    · simp at h
    · exact (configureLogDir_spec h).1
  · simp at h

theorem construct_spec {kw : List (PyStr × Yaml)} {c : ConfigObj} (h : ConfigObj.construct kw = .ok c) :
    ∃ p g l, Dict.get? kw fProject = some p ∧ subArg .logging (Dict.get? kw fLogging) = .ok g ∧
      subArg .lora (Dict.get? kw fLora) = .ok l ∧ OneLogDir c ∧ Dict.get? c fProject = some (.plain p) ∧
      Dict.get? c fRootDir = some (.plain ((Dict.get? kw fRootDir).getD (.str ['.', '/', 'l', 'o', 'g', 'i', 'x']))) ∧
      Dict.get? c fLora = some l ∧ ∃ cls a y, g = .inst cls a ∧ Dict.get? c fLogging = some (.inst cls (Dict.set a fLogDir y)) ∧
        y.isDict = false ∧ Dict.get? c fLogDir = some (.plain y) := by
  unfold ConfigObj.construct at h
  split at h
  · split at h
    · cases h
    · next p hp =>
      split at h
      · cases h
      · next g hg =>
        split at h
        · cases h
        · next l hl =>
          dsimp only at h
          split at h
          · cases h
          · next c1 hc =>
            cases h
            obtain ⟨h1, h2, cls, a, y, h3, h4, h5, h6⟩ := configureLogDir_spec hc
            refine ⟨p, g, l, hp, hg, hl, h1, ?_, ?_, ?_, cls, a, y, ?_, h4, h5, h6⟩
            · rw [h2 _ (by decide) (by decide)]; rfl
            · rw [h2 _ (by decide) (by decide)]; rfl
            · rw [h2 _ (by decide) (by decide)]; rfl
            · exact Option.some.inj h3
  · cases h

theorem initConfig_spec {project : PyStr} {file : Option (Option Yaml)} {c : ConfigObj} (h : initConfigFromYaml project file = .ok c) :
    OneLogDir c ∧ value c (.top "project") = some (.str project) := by
  unfold initConfigFromYaml at h
  split at h
  · obtain ⟨p, g, l, h1, _, _, h2, h3, _⟩ := construct_spec h
    simp only [Dict.get?_cons_self, Option.some.injEq] at h1
    subst h1
    exact ⟨h2, value_top h3⟩
  · cases h
  · obtain ⟨p, g, l, h1, _, _, h2, h3, _⟩ := construct_spec h
    simp only [Dict.get?_set_self, Option.some.injEq] at h1
    subst h1
    exact ⟨h2, value_top h3⟩
  · cases h

theorem runConstruct_spec {project : PyStr} {file : Option (Option Yaml)} {lc : Option (List (PyStr × Yaml))} {r : RunConfig}
    (h : RunConfig.construct project file lc = .ok r) :
    OneLogDir r.config ∧ value r.config (.top "project") = some (.str project) ∧
      (∃ y, r.logDir = .plain y ∧ value r.config (.top "log_dir") = some y) ∧
      ∀ n : String, value r.config (.sub "logging" n) = Dict.get? r.logger n.toList := by
  unfold RunConfig.construct at h
  split at h
  · cases h
  · next c hc =>
    obtain ⟨h1, h2⟩ := initConfig_spec hc
    have key : ∀ c1 : ConfigObj, (match lc with | none => (c, Except.ok ()) | some a => c.setLogging a) = (c1, .ok ()) →
        OneLogDir c1 ∧ value c1 (.top "project") = some (.str project) := by
      intro c1 hc1
      cases lc with
      | none => simp only [Prod.mk.injEq, and_true] at hc1; subst hc1; exact ⟨h1, h2⟩
      | some a =>
        refine ⟨setLogging_oneLogDir h1 hc1, ?_⟩
        rw [← h2]
        dsimp only at hc1
        unfold ConfigObj.setLogging at hc1
        split at hc1
        · simp only [Prod.mk.injEq, and_true] at hc1
          subst hc1
          simp only [value]; rw [Dict.get?_set_ne _ _ (by decide)]
        · simp at hc1
    split at h
    · cases h
    · next c1 hc1 =>
      obtain ⟨k1, k2⟩ := key c1 hc1
      split at h
      · next d cls attrs hd hg =>
        cases h
        obtain ⟨root, proj, o1, o2, o3, o4⟩ := oneLogDir_iff.1 k1
        refine ⟨k1, k2, ⟨.str (osPathJoin root proj), ?_, o3⟩, fun n => value_sub (s := "logging") hg⟩
        have hd' : Dict.get? c1 "log_dir".toList = some d := hd
        simp only [value, hd'] at o3
        cases d with
        | plain y => cases o3; rfl
        | inst _ _ => cases o3
      · cases h

/-- **C70.** After construction (from any file or none, with or without a logging configuration) and any sequence of successful
`set_logging_config`, `set_lora_config` and `initialize_from_log`, all log directories are root_dir/project of the current
configuration. -/
theorem C70_one_log_dir (project : PyStr) (file : Option (Option Yaml)) (lc : Option (List (PyStr × Yaml))) (ops : List ConfigOp)
    (r r' : RunConfig) (h : RunConfig.construct project file lc = .ok r) (hs : r.steps ops = .ok r') : OneLogDir r'.config := by
  have h0 := (runConstruct_spec h).1
  clear h
  induction ops generalizing r with
  | nil => simp only [RunConfig.steps, Except.ok.injEq] at hs; subst hs; exact h0
  | cons op ops ih =>
    simp only [RunConfig.steps] at hs
    split at hs
    · cases hs
    · next r1 hr1 =>
      refine ih r1 hs ?_
      cases op with
      | setLogging a =>
        simp only [RunConfig.step, Prod.mk.injEq] at hr1
        rw [← hr1.1]
        exact setLogging_oneLogDir h0 (a := a) (Prod.ext rfl hr1.2)
      | setLora a =>
        simp only [RunConfig.step, Prod.mk.injEq, and_true] at hr1
        rw [← hr1]
        exact setLora_oneLogDir a h0
      | initFromLog f =>
        simp only [RunConfig.step, Prod.mk.injEq] at hr1
        rw [← hr1.1]
        exact load_oneLogDir (f := f) (Prod.ext rfl hr1.2)

/-- **C70, the project argument.** Whatever the configuration file says, the project is the one given to the constructor. -/
theorem C70_project_wins (project : PyStr) (file : Option (Option Yaml)) (lc : Option (List (PyStr × Yaml))) (r : RunConfig)
    (h : RunConfig.construct project file lc = .ok r) : value r.config (.top "project") = some (.str project) :=
  (runConstruct_spec h).2.1

/-! ### legal configurations are what the program builds -/

theorem subConstruct_spec {cls : SubClass} {kw a : List (PyStr × Yaml)} (h : cls.construct kw = .ok a) :
    ∀ f, Dict.get? a f = ((Dict.get? cls.fields f).join).map fun dflt => (Dict.get? kw f).getD dflt := by
  unfold SubClass.construct at h
  split at h
  · cases h
    intro f
    cases cls
    all_goals
      simp only [SubClass.fields, List.filterMap_cons, Option.map_none, Option.map_some, List.filterMap_nil, Dict.get?]
      repeat' split
      all_goals first | (simp_all; done) | (rename_i h1 h2; subst h1; exact absurd h2 (by decide))
  · cases h

/-- The sections given in a file are mappings whose values are not mappings. -/
def GoodSections (d : List (PyStr × Yaml)) : Prop :=
  ∀ k ∈ [fLogging, fLora], ∀ y, Dict.get? d k = some y → ∃ a, y = .dict a ∧ ∀ kv ∈ a, kv.2.isDict = false

theorem subArg_good {cls : SubClass} {y : Option Yaml} {v : CVal} (h : subArg cls y = .ok v)
    (hy : ∀ z, y = some z → ∃ a, z = .dict a ∧ ∀ kv ∈ a, kv.2.isDict = false) :
    ∃ a, v = .inst cls a ∧ ∀ f, (Dict.get? cls.fields f).join.isSome → ∃ y, Dict.get? a f = some y ∧ y.isDict = false := by
  have key : ∀ kw a, cls.construct kw = .ok a → (∀ kv ∈ kw, kv.2.isDict = false) →
      ∀ f, (Dict.get? cls.fields f).join.isSome → ∃ y, Dict.get? a f = some y ∧ y.isDict = false := by
    intro kw a hc hk f hf
    rw [subConstruct_spec hc]
    obtain ⟨dv, hdv⟩ := Option.isSome_iff_exists.1 hf
    rw [hdv]
    refine ⟨_, rfl, ?_⟩
    cases hg : Dict.get? kw f with
    | some y => exact hk _ (Dict.mem_of_get? _ hg)
    | none =>
      simp only [Option.getD_none]
      have hj : Dict.get? cls.fields f = some (some dv) := by
        cases hx : Dict.get? cls.fields f with
        | none => rw [hx] at hdv; cases hdv
        | some z => rw [hx] at hdv; simp only [Option.join_some] at hdv; rw [hdv]
      have hm := Dict.mem_of_get? _ hj
      cases cls <;> simp [SubClass.fields] at hm <;> rcases hm with h | h | h | h <;> rw [h.2] <;> rfl
  unfold subArg at h
  split at h
  · split at h
    · cases h
    · next a ha => cases h; exact ⟨a, rfl, key [] a ha (by simp)⟩
  · next d =>
    split at h
    · cases h
    · next a ha =>
      cases h
      obtain ⟨a', e, hk⟩ := hy _ rfl
      cases e
      exact ⟨a, rfl, key d a ha hk⟩
  · next y hnd =>
    obtain ⟨a, e, _⟩ := hy _ rfl
    exact absurd e (hnd a)

theorem construct_legal {kw : List (PyStr × Yaml)} {c : ConfigObj} (h : ConfigObj.construct kw = .ok c) (hs : GoodSections kw) :
    Legal c := by
  obtain ⟨p, g, l, h1, h2, h3, hone, h5, h6, h7, cls, a, y, h8, h9, h10, h11⟩ := construct_spec h
  obtain ⟨root, proj, o1, o2, o3, o4⟩ := oneLogDir_iff.1 hone
  obtain ⟨ga, e1, e2⟩ := subArg_good h2 (hs _ (by simp))
  obtain ⟨la, e3, e4⟩ := subArg_good h3 (hs _ (by simp))
  rw [e1] at h8
  cases h8
  refine ⟨⟨_, o2⟩, ⟨_, o1⟩, ⟨_, o3, rfl⟩, ⟨_, h9, ?_⟩, ⟨_, by rw [← e3]; exact h7, ?_⟩⟩
  · intro f hf
    rw [Dict.get?_set]
    split
    · exact ⟨y, rfl, h10⟩
    · next hne =>
      apply e2
      simp only [SubClass.fields, List.mem_cons, List.not_mem_nil, or_false] at hf
      rcases hf with rfl | rfl | rfl | rfl | rfl
      · exact absurd rfl hne
      all_goals rfl
  · intro f hf
    apply e4
    simp only [SubClass.fields, List.mem_cons, List.not_mem_nil, or_false] at hf
    rcases hf with rfl | rfl | rfl | rfl <;> rfl

/-- Every configuration built from a file with good sections (or without a file) is legal and has one log directory: the hypotheses of
C69 and C71 hold for it. -/
theorem initConfig_legal {project : PyStr} {file : Option (Option Yaml)} {c : ConfigObj} (h : initConfigFromYaml project file = .ok c)
    (hs : ∀ d, file = some (some (.dict d)) → GoodSections d) : Legal c ∧ OneLogDir c := by
  refine ⟨?_, (initConfig_spec h).1⟩
  unfold initConfigFromYaml at h
  split at h
  · refine construct_legal h ?_
    intro k hk y hy
    simp only [List.mem_cons, List.not_mem_nil, or_false] at hk
    rcases hk with rfl | rfl
    · exact absurd hy (by rw [Dict.get?_cons, if_neg (by decide)]; simp)
    · exact absurd hy (by rw [Dict.get?_cons, if_neg (by decide)]; simp)
  · cases h
  · next d =>
    refine construct_legal h ?_
    intro k hk y hy
    have := hs d rfl k hk y
    simp only [List.mem_cons, List.not_mem_nil, or_false] at hk
    rcases hk with rfl | rfl
    · rw [Dict.get?_set_ne _ _ (by decide)] at hy; exact this hy
    · rw [Dict.get?_set_ne _ _ (by decide)] at hy; exact this hy
  · cases h

/-! ### C71 -/

/-- **C71 is false.** The file written for any legal configuration is rejected (TypeError) when it is given to a new run, for every
project name and every order of its keys. -/
theorem C71_saved_config_refuted (c : ConfigObj) (h : Legal c) (project : PyStr) (lc : Option (List (PyStr × Yaml))) :
    ∃ d, c.save = .ok (.dict d) ∧ ∀ e, SameFile d e →
      RunConfig.construct project (some (some (.dict e))) lc = .error .typeError := by
  obtain ⟨p, r, ld, g, l, hp, hr, hld, hldd, hg, hl, hgf, hlf⟩ := h.parts
  obtain ⟨gd, g1, _⟩ := asdictSub_get hgf
  obtain ⟨lod, l1, _⟩ := asdictSub_get hlf
  refine ⟨_, save_ok hp hr hld hg hl g1 l1, ?_⟩
  intro e he
  have eld : Dict.get? e fLogDir = some ld := by
    have := he.same fLogDir
    simp only [Dict.get?_cons, if_neg (show fProject ≠ fLogDir by decide), if_true] at this
    cases ld with
    | dict _ => simp [Yaml.isDict] at hldd
    | str _ => exact this
    | atom _ => exact this
  have : initConfigFromYaml project (some (some (.dict e))) = .error .typeError := by
    simp only [initConfigFromYaml, ConfigObj.construct]
    rw [if_neg]
    rw [List.all_eq_true]
    intro hall
    have hm : (fLogDir, ld) ∈ Dict.set e fProject (.str project) := by
      apply Dict.mem_of_get?
      rw [Dict.get?_set_ne _ _ (by decide), eld]
    have := hall _ hm
    revert this
    simp only [decide_eq_true_eq]
    decide
  simp only [RunConfig.construct, this]

/-- **C71, what holds.** A file with the saved settings except `project` and the two `log_dir` entries (in any order) is accepted for any
project name, and gives a configuration with the saved settings. Missing for C71: the file as written contains `log_dir`. -/
theorem C71_stripped_config_partial (c : ConfigObj) (h : Legal c) (project : PyStr) (gd lod : List (PyStr × Yaml)) (r : Yaml)
    (hr : value c (.top "root_dir") = some r)
    (hgk : ∀ kv ∈ gd, kv.1 ∈ ["flush_threshold".toList, "num_workers".toList, "cpu_offload".toList, "log_dtype".toList])
    (hg : ∀ n ∈ ["flush_threshold", "num_workers", "cpu_offload", "log_dtype"],
      Dict.get? gd n.toList = value c (.sub "logging" n))
    (hlk : ∀ kv ∈ lod, kv.1 ∈ ["init".toList, "rank".toList, "parameter_sharing".toList, "parameter_sharing_groups".toList])
    (hl : ∀ n ∈ ["init", "rank", "parameter_sharing", "parameter_sharing_groups"], Dict.get? lod n.toList = value c (.sub "lora" n))
    (e : List (PyStr × Yaml)) (hek : ∀ kv ∈ e, kv.1 ∈ ["root_dir".toList, "logging".toList, "lora".toList])
    (her : Dict.get? e "root_dir".toList = some r) (heg : Dict.get? e "logging".toList = some (.dict gd))
    (hel : Dict.get? e "lora".toList = some (.dict lod)) :
    ∃ c', initConfigFromYaml project (some (some (.dict e))) = .ok c' ∧ value c' (.top "project") = some (.str project) ∧
      value c' (.top "root_dir") = value c (.top "root_dir") ∧
      (∀ n ∈ ["flush_threshold", "num_workers", "cpu_offload", "log_dtype"],
        value c' (.sub "logging" n) = value c (.sub "logging" n)) ∧
      (∀ n ∈ ["init", "rank", "parameter_sharing", "parameter_sharing_groups"], value c' (.sub "lora" n) = value c (.sub "lora" n)) := by
  obtain ⟨p, r0, ld, g, l, hp, hr0, hld, hldd, hcg, hcl, hgf, hlf⟩ := h.parts
  have hr1 : r = .str r0 := by
    rw [value_top (n := "root_dir") hr0] at hr
    exact (Option.some.inj hr).symm
  subst hr1
  have mk : ∀ (cls : SubClass) (d : List (PyStr × Yaml)), (∀ kv ∈ d, (Dict.get? cls.fields kv.1).join.isSome) →
      ∃ a, cls.construct d = .ok a := by
    intro cls d hd
    unfold SubClass.construct
    rw [if_pos (List.all_eq_true.2 hd)]
    exact ⟨_, rfl⟩
  obtain ⟨ga, hga⟩ := mk .logging gd (by
    intro kv hkv
    have := hgk kv hkv
    simp only [List.mem_cons, List.not_mem_nil, or_false] at this
    rcases this with e | e | e | e <;> rw [e] <;> rfl)
  obtain ⟨la, hla⟩ := mk .lora lod (by
    intro kv hkv
    have := hlk kv hkv
    simp only [List.mem_cons, List.not_mem_nil, or_false] at this
    rcases this with e | e | e | e <;> rw [e] <;> rfl)
  have heg' : Dict.get? (Dict.set e fProject (.str project)) fLogging = some (.dict gd) := by
    rw [Dict.get?_set_ne _ _ (by decide)]; exact heg
  have hel' : Dict.get? (Dict.set e fProject (.str project)) fLora = some (.dict lod) := by
    rw [Dict.get?_set_ne _ _ (by decide)]; exact hel
  have her' : Dict.get? (Dict.set e fProject (.str project)) fRootDir = some (.str r0) := by
    rw [Dict.get?_set_ne _ _ (by decide)]; exact her
  have hok : ∃ c', ConfigObj.construct (Dict.set e fProject (.str project)) = .ok c' := by
    unfold ConfigObj.construct
    rw [if_pos]
    · simp only [Dict.get?_set_self, heg', hel', her', subArg, hga, hla]
      refine ⟨_, rfl⟩
    · rw [List.all_eq_true]
      intro kv hkv
      have : kv.1 ∈ Dict.keys (Dict.set e fProject (.str project)) := List.mem_map_of_mem hkv
      rw [Dict.keys_set] at this
      have key : ∀ k ∈ Dict.keys e, k ∈ [fProject, fRootDir, fLogging, fLora] := by
        intro k hk
        obtain ⟨kv, hkv, rfl⟩ := List.mem_map.1 hk
        have := hek kv hkv
        simp only [List.mem_cons, List.not_mem_nil, or_false] at this
        rcases this with e | e | e <;> rw [e] <;> decide
      rw [decide_eq_true_iff]
      split at this
      · exact key _ this
      · rcases List.mem_append.1 this with h | h
        · exact key _ h
        · simp only [List.mem_cons, List.not_mem_nil, or_false] at h
          rw [h]; decide
  obtain ⟨c', hc'⟩ := hok
  refine ⟨c', hc', ?_⟩
  obtain ⟨p1, g1, l1, h1, h2, h3, h4, h5, h6, h7, cls, a, y, h8, h9, h10, h11⟩ := construct_spec hc'
  simp only [Dict.get?_set_self, Option.some.injEq] at h1
  subst h1
  simp only [heg', subArg, hga, Except.ok.injEq] at h2
  simp only [hel', subArg, hla, Except.ok.injEq] at h3
  subst h2 h3
  cases h8
  rw [her', Option.getD_some] at h6
  refine ⟨value_top h5, ?_, ?_, ?_⟩
  · rw [value_top (n := "root_dir") h6, hr]
  · intro n hn
    rw [value_sub (s := "logging") h9]
    have hsome : ∃ y, Dict.get? gd n.toList = some y := by
      rw [hg n hn, value_sub (s := "logging") hcg]
      simp only [List.mem_cons, List.not_mem_nil, or_false] at hn
      have hf : ∃ f ∈ SubClass.logging.fields, f.1 = n.toList := by
        rcases hn with rfl | rfl | rfl | rfl
        · exact ⟨(fFlush, some (.atom 1000000010)), by simp [SubClass.fields], by decide⟩
        · exact ⟨(fWorkers, some (.atom 11)), by simp [SubClass.fields], by decide⟩
        · exact ⟨(fOffload, some (.atom 1)), by simp [SubClass.fields], by decide⟩
        · exact ⟨(fDtype, some (.str ['n', 'o', 'n', 'e'])), by simp [SubClass.fields], by decide⟩
      obtain ⟨f, hf1, hf2⟩ := hf
      obtain ⟨y, hy, _⟩ := hgf f hf1
      exact ⟨y, by rw [← hf2]; exact hy⟩
    obtain ⟨y', hy'⟩ := hsome
    have hne : fLogDir ≠ n.toList := by
      simp only [List.mem_cons, List.not_mem_nil, or_false] at hn
      rcases hn with rfl | rfl | rfl | rfl <;> decide
    rw [Dict.get?_set_ne _ _ hne, subConstruct_spec hga, ← hg n hn, hy']
    simp only [List.mem_cons, List.not_mem_nil, or_false] at hn
    rcases hn with rfl | rfl | rfl | rfl <;> rfl
  · intro n hn
    rw [value_sub (s := "lora") h7]
    have hsome : ∃ y, Dict.get? lod n.toList = some y := by
      rw [hl n hn, value_sub (s := "lora") hcl]
      simp only [List.mem_cons, List.not_mem_nil, or_false] at hn
      have hf : ∃ f ∈ SubClass.lora.fields, f.1 = n.toList := by
        rcases hn with rfl | rfl | rfl | rfl
        · exact ⟨(fInit, some (.str ['r', 'a', 'n', 'd', 'o', 'm'])), by simp [SubClass.fields], by decide⟩
        · exact ⟨(fRank, some (.atom 74)), by simp [SubClass.fields], by decide⟩
        · exact ⟨(fSharing, some (.atom 1)), by simp [SubClass.fields], by decide⟩
        · exact ⟨(fGroups, some (.atom 0)), by simp [SubClass.fields], by decide⟩
      obtain ⟨f, hf1, hf2⟩ := hf
      obtain ⟨y, hy, _⟩ := hlf f hf1
      exact ⟨y, by rw [← hf2]; exact hy⟩
    obtain ⟨y', hy'⟩ := hsome
    rw [subConstruct_spec hla, ← hl n hn, hy']
    simp only [List.mem_cons, List.not_mem_nil, or_false] at hn
    rcases hn with rfl | rfl | rfl | rfl <;> rfl

/-! ### C80, C81 -/

/-- **C80 is false.** Whatever logging configuration is installed on a live run (by `set_logging_config` or by `initialize_from_log`),
the values the logger uses stay those of the construction. -/
theorem C80_live_logging_config_refuted (r r' : RunConfig) (ops : List ConfigOp) (hs : r.steps ops = .ok r') :
    r'.logger = r.logger := by
  induction ops generalizing r with
  | nil => simp only [RunConfig.steps, Except.ok.injEq] at hs; rw [hs]
  | cons op ops ih =>
    simp only [RunConfig.steps] at hs
    split at hs
    · cases hs
    · next r1 hr1 =>
      rw [ih r1 hs]
      cases op <;> simp only [RunConfig.step, Prod.mk.injEq] at hr1 <;> rw [← hr1.1]

/-- **C80, what holds.** The logger uses the logging configuration that is in force when the run is constructed. -/
theorem C80_construction_partial (project : PyStr) (file : Option (Option Yaml)) (lc : Option (List (PyStr × Yaml))) (r : RunConfig)
    (h : RunConfig.construct project file lc = .ok r) (n : String) : value r.config (.sub "logging" n) = Dict.get? r.logger n.toList :=
  (runConstruct_spec h).2.2.2 n

theorem steps_logDir (r r' : RunConfig) (ops : List ConfigOp) (hs : r.steps ops = .ok r') : r'.logDir = r.logDir := by
  induction ops generalizing r with
  | nil => simp only [RunConfig.steps, Except.ok.injEq] at hs; rw [hs]
  | cons op ops ih =>
    simp only [RunConfig.steps] at hs
    split at hs
    · cases hs
    · next r1 hr1 =>
      rw [ih r1 hs]
      cases op <;> simp only [RunConfig.step, Prod.mk.injEq] at hr1 <;> rw [← hr1.1]

namespace Example

/-- The configuration written by a run with the default root directory and project "p". -/
def savedDefault : Yaml :=
  .dict [(fProject, .str ['p']), (fLogDir, .str ['.', '/', 'l', 'o', 'g', 'i', 'x', '/', 'p']),
    (fRootDir, .str ['.', '/', 'l', 'o', 'g', 'i', 'x']),
    (fLogging, .dict [(fLogDir, .str ['.', '/', 'l', 'o', 'g', 'i', 'x', '/', 'p']), (fFlush, .atom 1000000010), (fWorkers, .atom 11),
      (fOffload, .atom 1), (fDtype, .str ['n', 'o', 'n', 'e'])]),
    (fLora, .dict [(fInit, .str ['r', 'a', 'n', 'd', 'o', 'm']), (fRank, .atom 74), (fSharing, .atom 1), (fGroups, .atom 0)])]

/-- It is what `finalize` writes. -/
example : (initConfigFromYaml ['p'] none).bind ConfigObj.save = .ok savedDefault := rfl

/-- A new project cannot be started from it (C71). -/
example : initConfigFromYaml ['q'] (some (some savedDefault)) = .error .typeError := rfl

/-- A run constructed with root directory "r" and project "p". -/
def moved : Py RunConfig := RunConfig.construct ['p'] (some (some (.dict [(fRootDir, .str ['r'])]))) none

end Example

/-- **C81 is false.** A log directory that was moved: a run opened on `r/p` loads the configuration saved when the directory was
`./logix/p`. Afterwards the run still reads and writes `r/p`, while the configuration and its logging section say `./logix/p`. -/
theorem C81_log_dir_refuted : ∃ r r' : RunConfig, Example.moved = .ok r ∧
    r.steps [.initFromLog (some Example.savedDefault)] = .ok r' ∧
    (match r'.logDir with | .plain y => some y | _ => none) = some (.str "r/p".toList) ∧
    value r'.config (.top "log_dir") = some (.str "./logix/p".toList) ∧
    value r'.config (.sub "logging" "log_dir") = some (.str "./logix/p".toList) :=
  ⟨_, _, rfl, rfl, rfl, rfl, rfl⟩

/-- **C81, what holds.** If the loaded configuration has the same root directory and project as the run, the run's log directory is still
the configured one. -/
theorem C81_log_dir_partial (project : PyStr) (file : Option (Option Yaml)) (lc : Option (List (PyStr × Yaml))) (ops : List ConfigOp)
    (r r' : RunConfig) (h : RunConfig.construct project file lc = .ok r) (hs : r.steps ops = .ok r')
    (hsame : ∀ n ∈ ["root_dir", "project"], value r'.config (.top n) = value r.config (.top n)) :
    ∃ y, r'.logDir = .plain y ∧ value r'.config (.top "log_dir") = some y := by
  obtain ⟨y, h1, h2⟩ := (runConstruct_spec h).2.2.1
  refine ⟨y, by rw [steps_logDir r r' ops hs, h1], ?_⟩
  obtain ⟨root, proj, o1, o2, o3, o4⟩ := oneLogDir_iff.1 (runConstruct_spec h).1
  obtain ⟨root', proj', q1, q2, q3, q4⟩ := oneLogDir_iff.1 (C70_one_log_dir project file lc ops r r' h hs)
  rw [hsame _ (by simp), o1] at q1
  rw [hsame _ (by simp), o2] at q2
  cases q1; cases q2
  rw [q3, ← o3, h2]

namespace Example

/-- A live run whose logging configuration is replaced: the new threshold 5 is in the configuration, the logger keeps the default (C80). -/
theorem C80_witness_refuted : ∃ r r' : RunConfig, RunConfig.construct ['p'] none none = .ok r ∧
    r.steps [.setLogging [(fFlush, .atom 15)]] = .ok r' ∧
    value r'.config (.sub "logging" "flush_threshold") = some (.atom 15) ∧ Dict.get? r'.logger fFlush = some (.atom 1000000010) :=
  ⟨_, _, rfl, rfl, rfl, rfl⟩

/-- A configuration with sections in the file: the hypotheses of C69 (both configurations), C70 and C71 hold. -/
example : ∃ c c', initConfigFromYaml ['p'] (some (some (.dict [(fLora, .dict [(fInit, .str ['p', 'c', 'a'])])]))) = .ok c ∧
    initConfigFromYaml ['q'] none = .ok c' ∧ Legal c ∧ OneLogDir c ∧ Legal c' := by
  refine ⟨_, _, rfl, rfl, ?_, ?_, ?_⟩
  · refine (initConfig_legal (project := ['p']) (file := some (some (.dict [(fLora, .dict [(fInit, .str ['p', 'c', 'a'])])]))) rfl ?_).1
    intro d hd
    simp only [Option.some.injEq, Yaml.dict.injEq] at hd
    subst hd
    intro k hk y hy
    simp only [List.mem_cons, List.not_mem_nil, or_false] at hk
    rcases hk with rfl | rfl
    · cases hy
    · cases hy
      refine ⟨_, rfl, ?_⟩
      intro kv hkv
      simp only [List.mem_cons, List.not_mem_nil, or_false] at hkv
      rw [hkv]; rfl
  · exact (initConfig_spec (project := ['p']) (file := some (some (.dict [(fLora, .dict [(fInit, .str ['p', 'c', 'a'])])]))) rfl).1
  · exact (initConfig_legal (project := ['q']) (file := none) rfl (by intro d hd; cases hd)).1

/-- A file is the same file as itself when keys are distinct: `SameFile` can be met. -/
example : SameFile [(fProject, .str ['p']), (fLora, .dict [(fRank, .atom 18)])] [(fLora, .dict [(fRank, .atom 18)]), (fProject, .str ['p'])] := by
  refine ⟨by decide, ?_⟩
  intro k
  by_cases h1 : fProject = k
  · subst h1; rfl
  · by_cases h2 : fLora = k
    · subst h2; exact ⟨_, rfl, by decide, fun _ => rfl⟩
    · simp [Dict.get?, h1, h2]

end Example
end Logix
