/-
C155: opening a log directory never passes over a data file.
-/
import Verif.Props.Names
import Verif.Model.Storage
import Verif.Spec.AllOpened

namespace Logix

instance : DecidablePred IsDataName := fun f =>
  decidable_of_iff (endsWith f ['.', 'm', 'm', 'a', 'p'] = true ∧ startsWith f ['l', 'o', 'g', '_'] = true)
    (and_congr (endsWith_iff f _) (startsWith_iff f _))

theorem matchLit_some {lit s t : PyStr} (h : matchLit lit s = some t) : s = lit ++ t := by
  unfold matchLit at h
  split at h
  · rename_i hp
    obtain ⟨u, rfl⟩ := List.isPrefixOf_iff_prefix.1 hp
    simp at h
    rw [h]
  · cases h

theorem matchDigits_some {s d t : PyStr} (h : matchDigits s = some (d, t)) :
    s = d ++ t ∧ d ≠ [] ∧ ∀ c ∈ d, c.isDigit = true := by
  have hs := List.takeWhile_append_dropWhile (p := Char.isDigit) (l := s)
  have hd : ∀ c ∈ s.takeWhile Char.isDigit, c.isDigit = true := fun c hc => by
    have := List.all_takeWhile (p := Char.isDigit) (l := s)
    exact List.all_eq_true.1 this c hc
  unfold matchDigits at h
  split at h
  · cases h
  · rename_i hne
    simp only [Option.some.injEq, Prod.mk.injEq] at h
    obtain ⟨rfl, rfl⟩ := h
    exact ⟨hs.symm, hne, hd⟩

theorem namesChunk_here {s : PyStr} {p : Nat × Nat} (h : matchRankChunkHere s = some p) : NamesChunk s := by
  unfold matchRankChunkHere at h
  cases h1 : matchLit ['r', 'a', 'n', 'k', '_'] s with
  | none => rw [h1] at h; cases h
  | some s1 =>
    cases h2 : matchDigits s1 with
    | none => simp [h1, h2] at h
    | some q =>
      obtain ⟨r, s2⟩ := q
      cases h3 : matchLit ['_', 'c', 'h', 'u', 'n', 'k', '_'] s2 with
      | none => simp [h1, h2, h3] at h
      | some s3 =>
        cases h4 : matchDigits s3 with
        | none => simp [h1, h2, h3, h4] at h
        | some q =>
          obtain ⟨k, s4⟩ := q
          have e1 := matchLit_some h1
          obtain ⟨e2, n2, d2⟩ := matchDigits_some h2
          have e3 := matchLit_some h3
          obtain ⟨e4, n4, d4⟩ := matchDigits_some h4
          refine ⟨[], r, k, s4, ?_, n2, n4, d2, d4⟩
          rw [e1, e2, e3, e4]
          simp

theorem namesChunk_append {s : PyStr} (h : NamesChunk s) (a b : PyStr) : NamesChunk (a ++ s ++ b) := by
  obtain ⟨a', r, k, b', rfl, h⟩ := h
  exact ⟨a ++ a', r, k, b' ++ b, by simp [List.append_assoc], h⟩

theorem namesChunk_search {s : PyStr} {p : Nat × Nat} (h : searchRankChunk s = some p) : NamesChunk s := by
  induction s with
  | nil => exact namesChunk_here h
  | cons c s ih =>
    rw [searchRankChunk] at h
    cases h1 : matchRankChunkHere (c :: s) with
    | some q => exact namesChunk_here h1
    | none =>
      rw [h1] at h
      simpa using namesChunk_append (ih h) [c] []

theorem rstrip_part (s chars : PyStr) : ∃ b, s = rstrip s chars ++ b := by
  refine ⟨(s.reverse.takeWhile (chars.contains ·)).reverse, ?_⟩
  rw [rstrip, ← List.reverse_append, List.takeWhile_append_dropWhile, List.reverse_reverse]

theorem strip_part (s chars : PyStr) : ∃ a b, s = a ++ strip s chars ++ b := by
  obtain ⟨b, hb⟩ := rstrip_part (lstrip s chars) chars
  refine ⟨s.takeWhile (chars.contains ·), b, ?_⟩
  rw [strip, List.append_assoc, ← hb, lstrip, List.takeWhile_append_dropWhile]

theorem decorate_ok {l : List PyStr} {d : List ((Nat × Nat) × PyStr)} (h : decorate l = .ok d) :
    d.length = l.length ∧ ∀ s ∈ l, NamesChunk s := by
  induction l generalizing d with
  | nil => simp only [decorate, Except.ok.injEq] at h; subst h; simp
  | cons s l ih =>
    rw [decorate] at h
    cases h1 : searchRankChunk s with
    | none => simp only [extractRankAndChunk, h1] at h; cases h
    | some p =>
      simp only [extractRankAndChunk, h1] at h
      cases h2 : decorate l with
      | error e => rw [h2] at h; cases h
      | ok t =>
        rw [h2] at h
        cases h
        obtain ⟨i1, i2⟩ := ih h2
        refine ⟨by simp [i1], fun x hx => ?_⟩
        rcases List.mem_cons.1 hx with rfl | hx
        · exact namesChunk_search h1
        · exact i2 x hx

theorem fetchData_length {fs : FS} {keys : List PyStr} {ds ds' : Dataset} (h : fetchData fs keys ds = .ok ds') :
    ds'.memmaps.length = ds.memmaps.length + keys.length := by
  induction keys generalizing ds with
  | nil => simp only [fetchData, Except.ok.injEq] at h; subst h; simp
  | cons c keys ih =>
    rw [fetchData] at h
    split at h
    · cases h
    · split at h
      · cases h
      · have := ih h
        simp only [List.length_append, List.length_cons, List.length_nil] at this ⊢
        omega

/-- **C155.** When a log directory can be opened, in whatever order it is listed, every file `log_….mmap` in it was opened (as many memory maps as such files), and the name of
each tells its rank and chunk number. -/
theorem C155_all_opened (fs : FS) (listing : List PyStr) (ds : Dataset) (h : openDataset fs listing = .ok ds) :
    ds.memmaps.length = listing.countP (fun f => decide (IsDataName f)) ∧
    ∀ f ∈ listing, IsDataName f → NamesChunk f := by
  rw [openDataset] at h
  cases hk : findChunkIndices listing with
  | error e => rw [hk] at h; cases h
  | ok keys =>
    rw [hk] at h
    have hlen := fetchData_length h
    rw [findChunkIndices] at hk
    have hfilter : (listing.filter fun f => endsWith f ['.', 'm', 'm', 'a', 'p'] && startsWith f ['l', 'o', 'g', '_']) =
        listing.filter fun f => decide (IsDataName f) := by
      congr 1
      funext f
      rw [Bool.eq_iff_iff, Bool.and_eq_true, decide_eq_true_iff]
      exact and_congr (endsWith_iff f _) (startsWith_iff f _)
    rw [hfilter] at hk
    cases hd : decorate ((listing.filter fun f => decide (IsDataName f)).map fun f => strip (rstrip f ['.', 'm', 'm', 'a', 'p']) ['l', 'o', 'g', '_']) with
    | error e => rw [hd] at hk; cases hk
    | ok dec =>
      rw [hd] at hk
      cases hk
      obtain ⟨h1, h2⟩ := decorate_ok hd
      refine ⟨?_, fun f hf hdata => ?_⟩
      · rw [hlen, List.length_map, (pySorted_perm _ dec).length_eq, h1, List.length_map, List.countP_eq_length_filter]
        simp
      · have := h2 _ (List.mem_map_of_mem (List.mem_filter.2 ⟨hf, decide_eq_true hdata⟩))
        obtain ⟨b, hb⟩ := rstrip_part f ['.', 'm', 'm', 'a', 'p']
        obtain ⟨a', b', hb'⟩ := strip_part (rstrip f ['.', 'm', 'm', 'a', 'p']) ['l', 'o', 'g', '_']
        have h3 := namesChunk_append this a' (b' ++ b)
        rwa [← List.append_assoc, ← hb', ← hb] at h3

/-- A data file whose name tells no rank and chunk number makes opening the directory fail, whatever else is there: it is not left out silently. -/
theorem C155_unknown_raises (fs : FS) (listing : List PyStr) (f : PyStr) (hf : f ∈ listing) (hd : IsDataName f) (hn : ¬ NamesChunk f) :
    ∃ e, openDataset fs listing = .error e := by
  cases h : openDataset fs listing with
  | error e => exact ⟨e, rfl⟩
  | ok ds => exact absurd ((C155_all_opened fs listing ds h).2 f hf hd) hn

namespace ExOpened

def file (k : Nat) : PyStr := (Spec.dataFileName 0 k).toList
def metaFile (k : Nat) : PyStr := (Spec.metaFileName 0 k).toList

/-- A directory with two chunks and another file. -/
def dir : FS := [(file 1, .data [1]), (metaFile 0, .metadata []), ("state.pt".toList, .incomplete), (file 0, .data [2, 3]), (metaFile 1, .metadata [])]

/-- It can be opened, and both data files are. -/
example : (match openDataset dir (dir.map Prod.fst) with
    | .ok ds => some ds.memmaps
    | .error _ => none) = some [[2, 3], [1]] := by decide +kernel

/-- A copy of a data file under another name is a data file that tells no chunk. -/
example : IsDataName "log_copy.mmap".toList ∧ ¬ NamesChunk "log_copy.mmap".toList := by
  refine ⟨by decide +kernel, ?_⟩
  rintro ⟨a, r, k, b, h, -⟩
  have := congrArg (fun l => decide ('r' ∈ l)) h
  simp at this

end ExOpened

end Logix
