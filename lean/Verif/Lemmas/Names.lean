import Verif.Model.Names

namespace Logix

/-- What the loader keeps of a chunk name. -/
def chunkKey (rank k : Nat) : PyStr := ['r', 'a', 'n', 'k', '_'] ++ decimal rank ++ ['_', 'c', 'h', 'u', 'n', 'k', '_'] ++ decimal k

theorem decimal_ne_nil (n : Nat) : decimal n ≠ [] := Nat.toDigits_ne_nil

theorem isDigit_of_mem_decimal {n : Nat} {c : Char} (h : c ∈ decimal n) : c.isDigit :=
  Nat.isDigit_of_mem_toDigits (by omega) (by omega) h

theorem ofDigitChars_decimal (n : Nat) : Nat.ofDigitChars 10 (decimal n) 0 = n :=
  Nat.ofDigitChars_ten_toDigits

theorem decimal_inj {a b : Nat} (h : decimal a = decimal b) : a = b := by
  rw [← ofDigitChars_decimal a, ← ofDigitChars_decimal b, h]

/-- A decimal numeral ends in a digit. -/
theorem decimal_split_last (n : Nat) :
    ∃ init d, decimal n = init ++ [d] ∧ d.isDigit = true := by
  refine ⟨(decimal n).dropLast, (decimal n).getLast (decimal_ne_nil n), ?_, ?_⟩
  · exact (List.dropLast_concat_getLast _).symm
  · exact isDigit_of_mem_decimal (List.getLast_mem _)

theorem digit_not_mem_mmap {c : Char} (h : c.isDigit = true) :
    List.contains ['.', 'm', 'm', 'a', 'p'] c = false := by
  rw [Bool.eq_false_iff]
  intro hc
  simp at hc
  rcases hc with rfl | rfl | rfl | rfl <;> simp [Char.isDigit] at h

theorem digit_not_mem_log {c : Char} (h : c.isDigit = true) :
    List.contains ['l', 'o', 'g', '_'] c = false := by
  rw [Bool.eq_false_iff]
  intro hc
  simp at hc
  rcases hc with rfl | rfl | rfl | rfl <;> simp [Char.isDigit] at h

theorem rstrip_append_of_last (init : PyStr) (d : Char) (tail chars : PyStr)
    (hd : chars.contains d = false) (ht : ∀ c ∈ tail, chars.contains c = true) :
    rstrip (init ++ [d] ++ tail) chars = init ++ [d] := by
  unfold rstrip
  have h1 : (init ++ [d] ++ tail).reverse = tail.reverse ++ (d :: init.reverse) := by simp
  rw [h1, List.dropWhile_append_of_pos (by
    intro a ha
    exact ht a (List.mem_reverse.1 ha))]
  rw [List.dropWhile_cons_of_neg (by rw [hd]; simp)]
  simp

/-- The character-set strips of `find_chunk_indices` give back exactly the key. -/
theorem strip_chunkFile (rank k : Nat) :
    strip (rstrip (chunkFile rank k) ['.', 'm', 'm', 'a', 'p']) ['l', 'o', 'g', '_'] = chunkKey rank k := by
  obtain ⟨init, d, hk, hd⟩ := decimal_split_last k
  have e1 : chunkFile rank k = (filePrefix rank ++ init) ++ [d] ++ ['.', 'm', 'm', 'a', 'p'] := by
    simp [chunkFile, hk]
  rw [e1, rstrip_append_of_last _ _ _ _ (digit_not_mem_mmap hd) (by decide)]
  unfold strip lstrip
  have e2 : filePrefix rank ++ init ++ [d] =
      ['l', 'o', 'g', '_'] ++ ('r' :: (['a', 'n', 'k', '_'] ++ decimal rank ++ ['_', 'c', 'h', 'u', 'n', 'k', '_'] ++ init ++ [d])) := by
    simp [filePrefix]
  rw [e2, List.dropWhile_append_of_pos (by decide), List.dropWhile_cons_of_neg (by decide)]
  have e3 : ('r' :: (['a', 'n', 'k', '_'] ++ decimal rank ++ ['_', 'c', 'h', 'u', 'n', 'k', '_'] ++ init ++ [d])) =
      ('r' :: (['a', 'n', 'k', '_'] ++ decimal rank ++ ['_', 'c', 'h', 'u', 'n', 'k', '_'] ++ init)) ++ [d] ++ [] := by simp
  rw [e3, rstrip_append_of_last _ _ _ _ (digit_not_mem_log hd) (by simp)]
  simp [chunkKey, hk]

theorem loaderDataFile_chunkKey (rank k : Nat) :
    loaderDataFile (chunkKey rank k) = chunkFile rank k := by
  simp [loaderDataFile, chunkKey, chunkFile, filePrefix]

theorem takeWhile_append_cons {p : α → Bool} {l₁ : List α} {a : α} {l₂ : List α}
    (h : ∀ x ∈ l₁, p x = true) (ha : p a = false) :
    (l₁ ++ a :: l₂).takeWhile p = l₁ := by
  rw [List.takeWhile_append_of_pos h, List.takeWhile_cons_of_neg (by simp [ha])]
  simp

theorem dropWhile_append_cons {p : α → Bool} {l₁ : List α} {a : α} {l₂ : List α}
    (h : ∀ x ∈ l₁, p x = true) (ha : p a = false) :
    (l₁ ++ a :: l₂).dropWhile p = a :: l₂ := by
  rw [List.dropWhile_append_of_pos h, List.dropWhile_cons_of_neg (by simp [ha])]

theorem takeWhile_all {p : α → Bool} {l₁ : List α} (h : ∀ x ∈ l₁, p x = true) :
    l₁.takeWhile p = l₁ := by
  have := List.takeWhile_append_of_pos (l₂ := []) h
  simpa using this

theorem dropWhile_all {p : α → Bool} {l₁ : List α} (h : ∀ x ∈ l₁, p x = true) :
    l₁.dropWhile p = [] := by
  have := List.dropWhile_append_of_pos (l₂ := []) h
  simpa using this

theorem splitExt_chunkFile (rank k : Nat) :
    splitExt (chunkFile rank k) = (filePrefix rank ++ decimal k, ['.', 'm', 'm', 'a', 'p']) := by
  unfold splitExt
  have : (chunkFile rank k).reverse = ['p', 'a', 'm', 'm'] ++ '.' :: (filePrefix rank ++ decimal k).reverse := by
    simp [chunkFile]
  rw [this, takeWhile_append_cons (by decide) (by decide),
    dropWhile_append_cons (by decide) (by decide)]
  simp

theorem writeNames_chunkFile (rank k : Nat) :
    writeNames (chunkFile rank k) =
      (loaderDataFile (chunkKey rank k), loaderMetaFile (chunkKey rank k)) := by
  rw [loaderDataFile_chunkKey]
  simp [writeNames, splitExt_chunkFile, loaderMetaFile, chunkKey, filePrefix]

theorem matchLit_append (lit s : PyStr) : matchLit lit (lit ++ s) = some s := by
  simp [matchLit]

theorem matchDigits_decimal_append (n : Nat) (c : Char) (s : PyStr) (hc : c.isDigit = false) :
    matchDigits (decimal n ++ c :: s) = some (decimal n, c :: s) := by
  unfold matchDigits
  rw [takeWhile_append_cons (fun x hx => isDigit_of_mem_decimal hx) hc,
    dropWhile_append_cons (fun x hx => isDigit_of_mem_decimal hx) hc]
  cases h : decimal n with
  | nil => exact absurd h (decimal_ne_nil n)
  | cons a l => rfl

theorem matchDigits_decimal (n : Nat) : matchDigits (decimal n) = some (decimal n, []) := by
  unfold matchDigits
  rw [takeWhile_all (fun x hx => isDigit_of_mem_decimal hx),
    dropWhile_all (fun x hx => isDigit_of_mem_decimal hx)]
  cases h : decimal n with
  | nil => exact absurd h (decimal_ne_nil n)
  | cons a l => rfl

theorem extractRankAndChunk_chunkKey (rank k : Nat) :
    extractRankAndChunk (chunkKey rank k) = .ok (rank, k) := by
  have hm : matchRankChunkHere (chunkKey rank k) = some (rank, k) := by
    unfold matchRankChunkHere
    have e1 : chunkKey rank k = ['r', 'a', 'n', 'k', '_'] ++ (decimal rank ++ (['_', 'c', 'h', 'u', 'n', 'k', '_'] ++ decimal k)) := by
      simp [chunkKey]
    rw [e1, matchLit_append]
    have e2 : decimal rank ++ (['_', 'c', 'h', 'u', 'n', 'k', '_'] ++ decimal k) =
        decimal rank ++ '_' :: (['c', 'h', 'u', 'n', 'k', '_'] ++ decimal k) := by simp
    simp only [Option.bind_eq_bind, Option.bind_some]
    rw [e2, matchDigits_decimal_append _ _ _ (by decide)]
    have e3 : ('_' :: (['c', 'h', 'u', 'n', 'k', '_'] ++ decimal k)) = ['_', 'c', 'h', 'u', 'n', 'k', '_'] ++ decimal k := by simp
    simp only [Option.bind_some]
    rw [e3, matchLit_append]
    simp only [Option.bind_some]
    rw [matchDigits_decimal]
    simp [ofDigitChars_decimal]
  unfold extractRankAndChunk
  have : searchRankChunk (chunkKey rank k) = some (rank, k) := by
    cases h : chunkKey rank k with
    | nil => simp [chunkKey] at h
    | cons a l => rw [searchRankChunk, ← h, hm]; rfl
  rw [this]

theorem chunkKey_inj {r k r' k' : Nat} (h : chunkKey r k = chunkKey r' k') : r = r' ∧ k = k' := by
  have h1 := extractRankAndChunk_chunkKey r k
  rw [h, extractRankAndChunk_chunkKey] at h1
  simpa [eq_comm] using h1

theorem loaderDataFile_inj {a b : PyStr} (h : loaderDataFile a = loaderDataFile b) : a = b := by
  simpa [loaderDataFile] using h

theorem loaderMetaFile_inj {a b : PyStr} (h : loaderMetaFile a = loaderMetaFile b) : a = b := by
  simpa [loaderMetaFile] using h

theorem chunkFile_inj {r k r' k' : Nat} (h : chunkFile r k = chunkFile r' k') : r = r' ∧ k = k' := by
  rw [← loaderDataFile_chunkKey, ← loaderDataFile_chunkKey] at h
  exact chunkKey_inj (loaderDataFile_inj h)

theorem endsWith_append (s t : PyStr) : endsWith (s ++ t) t = true := by
  simp [endsWith]

theorem chunkFile_selected (r k : Nat) :
    (endsWith (chunkFile r k) ['.', 'm', 'm', 'a', 'p'] && startsWith (chunkFile r k) ['l', 'o', 'g', '_']) = true := by
  simp only [Bool.and_eq_true]
  constructor
  · exact endsWith_append _ _
  · simp [chunkFile, filePrefix, startsWith]

theorem loaderMetaFile_not_selected (s : PyStr) :
    endsWith (loaderMetaFile s) ['.', 'm', 'm', 'a', 'p'] = false := by
  simp [loaderMetaFile, endsWith, List.isPrefixOf]

theorem loaderMetaFile_ne_dataFile (a b : PyStr) : loaderMetaFile a ≠ loaderDataFile b := by
  intro h
  have h1 := loaderMetaFile_not_selected a
  rw [h] at h1
  have : endsWith (loaderDataFile b) ['.', 'm', 'm', 'a', 'p'] = true := endsWith_append _ _
  rw [this] at h1
  cases h1

theorem decorate_chunkKeys (ps : List (Nat × Nat)) :
    decorate (ps.map fun p => chunkKey p.1 p.2) = .ok (ps.map fun p => (p, chunkKey p.1 p.2)) := by
  induction ps with
  | nil => rfl
  | cons p ps ih =>
    simp only [List.map_cons, decorate, extractRankAndChunk_chunkKey, ih]
    rfl

/-- Strictly increasing in the numeric (rank, chunk) order. -/
def PairLt (a b : Nat × Nat) : Prop := a.1 < b.1 ∨ (a.1 = b.1 ∧ a.2 < b.2)

theorem pairLe_trans (a b c : Nat × Nat) : pairLe a b → pairLe b c → pairLe a c := by
  simp only [pairLe, decide_eq_true_eq]; omega

theorem pairLe_total (a b : Nat × Nat) : (pairLe a b || pairLe b a) = true := by
  simp only [pairLe, Bool.or_eq_true, decide_eq_true_eq]; omega

theorem insertBy_perm (le : α → α → Bool) (a : α) (l : List α) : (insertBy le a l).Perm (a :: l) := by
  induction l with
  | nil => exact List.Perm.refl _
  | cons b l ih =>
    simp only [insertBy]
    split
    · exact List.Perm.refl _
    · exact (ih.cons b).trans (List.Perm.swap a b l)

theorem pySorted_perm (le : α → α → Bool) (l : List α) : (pySorted le l).Perm l := by
  induction l with
  | nil => exact List.Perm.refl _
  | cons a l ih => exact (insertBy_perm le a _).trans (ih.cons a)

theorem mem_pySorted (le : α → α → Bool) (l : List α) (x : α) : x ∈ pySorted le l ↔ x ∈ l :=
  (pySorted_perm le l).mem_iff

theorem pairwise_insertBy {le : α → α → Bool} (htr : ∀ a b c, le a b → le b c → le a c)
    (htot : ∀ a b, (le a b || le b a) = true) (a : α) (l : List α)
    (h : l.Pairwise fun x y => le x y = true) :
    (insertBy le a l).Pairwise fun x y => le x y = true := by
  induction l with
  | nil => simp [insertBy]
  | cons b l ih =>
    rw [List.pairwise_cons] at h
    simp only [insertBy]
    split
    next hab =>
      rw [List.pairwise_cons]
      refine ⟨?_, List.pairwise_cons.2 h⟩
      intro x hx
      rcases List.mem_cons.1 hx with rfl | hx
      · exact hab
      · exact htr _ _ _ hab (h.1 x hx)
    next hab =>
      rw [List.pairwise_cons]
      refine ⟨?_, ih h.2⟩
      intro x hx
      have := (insertBy_perm le a l).mem_iff.1 hx
      rcases List.mem_cons.1 this with rfl | hx
      · have := htot x b
        simp only [Bool.or_eq_true] at this
        rcases this with h1 | h1
        · exact absurd h1 hab
        · exact h1
      · exact h.1 x hx

theorem pairwise_pySorted {le : α → α → Bool} (htr : ∀ a b c, le a b → le b c → le a c)
    (htot : ∀ a b, (le a b || le b a) = true) (l : List α) :
    (pySorted le l).Pairwise fun x y => le x y = true := by
  induction l with
  | nil => simp [pySorted]
  | cons a l ih => exact pairwise_insertBy htr htot a _ ih

theorem insertBy_map (f : α → β) (le : α → α → Bool) (le' : β → β → Bool)
    (h : ∀ a b, le' (f a) (f b) = le a b) (a : α) (l : List α) :
    insertBy le' (f a) (l.map f) = (insertBy le a l).map f := by
  induction l with
  | nil => rfl
  | cons b l ih =>
    simp only [List.map_cons, insertBy, h, ih]
    split <;> simp

theorem pySorted_map (f : α → β) (le : α → α → Bool) (le' : β → β → Bool)
    (h : ∀ a b, le' (f a) (f b) = le a b) (l : List α) :
    pySorted le' (l.map f) = (pySorted le l).map f := by
  induction l with
  | nil => rfl
  | cons a l ih =>
    have : pySorted le' ((a :: l).map f) = insertBy le' (f a) (pySorted le' (l.map f)) := rfl
    rw [this, ih, insertBy_map f le le' h]
    rfl

/-- The chunk pairs of a listing: what is left after the loader's filter, as numbers. -/
theorem findChunkIndices_eq (listing : List PyStr) (ps : List (Nat × Nat))
    (h : (listing.filter fun f => endsWith f ['.', 'm', 'm', 'a', 'p'] && startsWith f ['l', 'o', 'g', '_'])
      = ps.map fun p => chunkFile p.1 p.2) :
    findChunkIndices listing = .ok ((pySorted pairLe ps).map fun p => chunkKey p.1 p.2) := by
  unfold findChunkIndices
  simp only [h, List.map_map]
  have : ((fun f => strip (rstrip f ['.', 'm', 'm', 'a', 'p']) ['l', 'o', 'g', '_']) ∘ fun p : Nat × Nat => chunkFile p.1 p.2)
      = fun p => chunkKey p.1 p.2 := by
    funext p; exact strip_chunkFile p.1 p.2
  rw [this, decorate_chunkKeys]
  simp only [bind, Except.bind, pure, Except.pure]
  rw [pySorted_map (fun p : Nat × Nat => (p, chunkKey p.1 p.2)) pairLe _ (fun _ _ => rfl)]
  simp

theorem pairwise_pairLt_of_nodup {l : List (Nat × Nat)} (hs : l.Pairwise fun a b => pairLe a b = true)
    (hn : l.Nodup) : l.Pairwise PairLt := by
  have := List.Pairwise.and hs hn
  refine this.imp ?_
  intro a b hab
  obtain ⟨h1, h2⟩ := hab
  simp only [pairLe, decide_eq_true_eq] at h1
  unfold PairLt
  rcases h1 with h1 | ⟨h1, h3⟩
  · exact Or.inl h1
  · right
    refine ⟨h1, ?_⟩
    rcases Nat.lt_or_eq_of_le h3 with h | h
    · exact h
    · exact absurd (Prod.ext h1 h) h2

/-- Strictly increasing lists with the same elements are equal. -/
theorem eq_of_pairLt_of_mem_iff {l m : List (Nat × Nat)} (hl : l.Pairwise PairLt)
    (hm : m.Pairwise PairLt) (h : ∀ x, x ∈ l ↔ x ∈ m) : l = m := by
  induction l generalizing m with
  | nil =>
    cases m with
    | nil => rfl
    | cons b m => exact absurd ((h b).2 (by simp)) (by simp)
  | cons a l ih =>
    cases m with
    | nil => exact absurd ((h a).1 (by simp)) (by simp)
    | cons b m =>
      have irr : ∀ x : Nat × Nat, ¬ PairLt x x := by
        intro x hx; unfold PairLt at hx; omega
      have asym : ∀ x y : Nat × Nat, PairLt x y → ¬ PairLt y x := by
        intro x y h1 h2; unfold PairLt at *; omega
      rw [List.pairwise_cons] at hl hm
      have hab : a = b := by
        rcases List.mem_cons.1 ((h a).1 (by simp)) with e | e
        · exact e
        · rcases List.mem_cons.1 ((h b).2 (by simp)) with e' | e'
          · exact e'.symm
          · exact absurd (hl.1 b e') (asym _ _ (hm.1 a e))
      subst hab
      congr 1
      apply ih hl.2 hm.2
      intro x
      have hx := h x
      simp only [List.mem_cons] at hx
      constructor
      · intro hxl
        rcases hx.1 (Or.inr hxl) with e | e
        · subst e; exact absurd (hl.1 x hxl) (irr x)
        · exact e
      · intro hxm
        rcases hx.2 (Or.inr hxm) with e | e
        · subst e; exact absurd (hm.1 x hxm) (irr x)
        · exact e

end Logix
