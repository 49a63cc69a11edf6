import Verif.Lemmas.Logging

/-!
# C133: every line of a log message is attributed, blacklisted channels are silent, and starting a run
keeps the old log of the first rank
-/

namespace Fub

/-! ## The format -/

/-- **C133.** What is written for a message are the lines of the message, each with the prefix of the
record, for every message of at least two characters. -/
theorem log_every_line_prefixed (r : LogRecord) (hlen : 2 ≤ r.message.length)
    (hpre : '\n' ∉ logPrefix r) :
    List.splitOn '\n' (formatLogs r) =
      (List.splitOn '\n' r.message).map (fun line => logPrefix r ++ line) := by
  unfold formatLogs
  simp only
  rw [if_pos (by omega)]
  exact splitOn_replaceNewlines _ hpre _

/-- **C133.** The message can be read back from what is written. -/
theorem log_message_recovered (r : LogRecord) (hlen : 2 ≤ r.message.length)
    (hpre : '\n' ∉ logPrefix r) :
    ['\n'].intercalate ((List.splitOn '\n' (formatLogs r)).map
      (List.drop (logPrefix r).length)) = r.message := by
  rw [log_every_line_prefixed r hlen hpre, List.map_map]
  have e : (List.drop (logPrefix r).length ∘ fun line => logPrefix r ++ line) = id := by
    funext l
    simp
  rw [e, List.map_id, List.intercalate_splitOn]

/-- **C133.** The prefix shows the time stamp, the channel, the severity, the time and the level of the
record, in this order, each only if the record has it. -/
theorem log_prefix_shows (stamp : List Char) (c s t l msg : List Char) :
    logPrefix ⟨stamp, some c, some s, some t, some l, msg⟩ =
      stamp ++ " -- [".toList ++ c ++ "] [".toList ++ s ++ "] [T = ".toList ++ t ++
        "s] [level = ".toList ++ l ++ "] ".toList ∧
    logPrefix ⟨stamp, none, none, none, none, msg⟩ = stamp ++ " -- ".toList ∧
    logPrefix ⟨stamp, some c, none, none, none, msg⟩ =
      stamp ++ " -- [".toList ++ c ++ "] ".toList ∧
    logPrefix ⟨stamp, some c, some s, none, none, msg⟩ =
      stamp ++ " -- [".toList ++ c ++ "] [".toList ++ s ++ "] ".toList := by
  refine ⟨?_, ?_, ?_, ?_⟩ <;> simp [logPrefix, logAttr]

/-- **C133**, a disagreement: a message of one character is not written at all. -/
theorem log_short_message_lost (r : LogRecord) (hlen : r.message.length ≤ 1) :
    formatLogs r = [] := by
  unfold formatLogs
  simp only
  rw [if_neg (by omega)]

/-- A record whose message has two lines. -/
example : formatLogs ⟨['0'], some ['S'], none, none, none, ['a', '\n', 'b']⟩ =
    "0 -- [S] a\n0 -- [S] b".toList := by decide

/-- The hypotheses hold for it, and a message of one character exists. -/
example : 2 ≤ (['a', '\n', 'b'] : List Char).length ∧
    '\n' ∉ logPrefix ⟨['0'], some ['S'], none, none, none, ['a', '\n', 'b']⟩ ∧
    formatLogs ⟨['0'], none, none, none, none, ['7']⟩ = [] := by decide

/-! ## The filters -/

/-- **C133.** A record reaches the log file exactly if it has no channel or its channel is not in the
blacklist the user gave, in whatever order and with whatever repetitions. -/
theorem log_channel_filter {S : Type*} [LinearOrder S] (configured : List S) (channel : Option S) :
    channelFilter configured channel = true ↔ ∀ c, channel = some c → c ∉ configured := by
  cases channel with
  | none => simp [channelFilter]
  | some c =>
    simp only [channelFilter, Option.some.injEq, forall_eq']
    set bl := configured.mergeSort (fun a b => decide (a ≤ b)) with hbl
    have hmem : c ∈ configured ↔ c ∈ bl := (List.mergeSort_perm _ _).mem_iff.symm
    have hsort : bl.Pairwise (· ≤ ·) := by
      have := List.pairwise_mergeSort (le := fun a b : S => decide (a ≤ b))
        (fun a b c h1 h2 => by
          simp only [decide_eq_true_eq] at h1 h2 ⊢
          exact le_trans h1 h2)
        (fun a b => by
          simp only [Bool.or_eq_true, decide_eq_true_eq]
          exact le_total a b) configured
      simpa using this
    rw [hmem]
    clear_value bl
    set below : ℕ → Bool := fun i => match bl[i]? with
      | some b => decide (b < c)
      | none => false with hbelow
    have hb : ∀ i (hi : i < bl.length), below i = decide (bl[i] < c) := by
      intro i hi
      simp [hbelow, List.getElem?_eq_getElem hi]
    obtain ⟨h1, h2, h3⟩ := lowerBound_spec below bl.length (fun i j hij hj hbj => by
      rw [hb j hj] at hbj
      rw [hb i (by omega)]
      simp only [decide_eq_true_eq] at hbj ⊢
      rcases Nat.lt_or_eq_of_le hij with h | h
      · exact lt_of_le_of_lt (List.pairwise_iff_getElem.mp hsort i j (by omega) hj h) hbj
      · subst h; exact hbj)
    generalize lowerBound below bl.length = k at h1 h2 h3
    by_cases hk : k < bl.length
    · rw [List.getElem?_eq_getElem hk]
      simp only [decide_eq_true_eq]
      constructor
      · intro hne hc
        obtain ⟨j, hj, rfl⟩ := List.getElem_of_mem hc
        by_cases hjk : j < k
        · have := h2 j hjk
          rw [hb j hj] at this
          simp at this
        · have h4 : bl[k] ≤ bl[j] := by
            rcases Nat.lt_or_eq_of_le (Nat.le_of_not_lt hjk) with h | h
            · exact List.pairwise_iff_getElem.mp hsort k j hk hj h
            · subst h; exact le_rfl
          have h5 := h3 k le_rfl hk
          rw [hb k hk] at h5
          simp only [decide_eq_false_iff_not, not_lt] at h5
          exact hne (le_antisymm h4 h5)
      · intro hc heq
        exact hc (heq ▸ List.getElem_mem hk)
    · rw [List.getElem?_eq_none (by omega)]
      simp only [true_iff]
      intro hc
      obtain ⟨j, hj, rfl⟩ := List.getElem_of_mem hc
      have := h2 j (by omega)
      rw [hb j hj] at this
      simp at this

/-- **C133.** The console shows exactly the records of severity info and above. -/
theorem log_console_filter (s : Option LogSeverity) :
    consoleFilter s = true ↔ s = some .info ∨ s = some .warning ∨ s = some .error ∨
      s = some .fatal := by
  rcases s with _ | s
  · simp [consoleFilter]
  · cases s <;> simp [consoleFilter, LogSeverity.rank]

/-- A blacklist that is not sorted. -/
example : channelFilter [5, 1, 3] (some 3) = false ∧ channelFilter [5, 1, 3] (some 4) = true ∧
    channelFilter [5, 1, 3] (some 5) = false ∧ channelFilter [5, 1, 3] none = true := by
  refine ⟨?_, ?_, ?_, ?_⟩ <;> simp [channelFilter, List.mergeSort, lowerBound, lowerBoundFrom,
    List.MergeSort.Internal.splitInTwo]

/-! ## Files and ranks -/

/-- **C133.** A rank logs exactly if it is in the list of ranks. -/
theorem log_ranks {C : Type*} (empty : C) (ranks : List ℤ) (rank : ℤ) (fs : FileSystem C)
    (name : List Char) :
    (initializeLogging empty ranks rank fs name).1.isSome = true ↔ rank ∈ ranks := by
  unfold initializeLogging
  simp only
  by_cases h : rank ∈ ranks
  · simp [h]
  · simp [h]

/-- **C133.** If the log file of rank 0 exists already, its content is found afterwards under the name
with the smallest unused number, the log starts with an empty file, and nothing else changes. -/
theorem log_old_file_renamed {C : Type*} (empty : C) (ranks : List ℤ) (fs : FileSystem C)
    (name : List Char) (content : C) (hfile : fs name = some (.regular content))
    (hfree : ∃ i, 1 ≤ i ∧ i < 2 ^ 31 - 1 ∧ fs (numberedName name i) = none) (hlog : (0 : ℤ) ∈ ranks) :
    ∃ i, 1 ≤ i ∧ i < 2 ^ 31 - 1 ∧ fs (numberedName name i) = none ∧
      (∀ j, 1 ≤ j → j < i → fs (numberedName name j) ≠ none) ∧
      (initializeLogging empty ranks 0 fs name).1 = some name ∧
      (initializeLogging empty ranks 0 fs name).2 (numberedName name i) = some (.regular content) ∧
      (initializeLogging empty ranks 0 fs name).2 name = some (.regular empty) ∧
      ∀ p, p ≠ name → p ≠ numberedName name i →
        (initializeLogging empty ranks 0 fs name).2 p = fs p := by
  obtain ⟨i0, h1, h2, h3⟩ := hfree
  cases hf : firstFree fs name freeTries 1 with
  | none => exact absurd h3 (firstFree_none fs name _ _ hf i0 h1 (by unfold freeTries; omega))
  | some k =>
    obtain ⟨a, b, c, d⟩ := firstFree_some fs name _ _ _ hf
    have hprep : prepareLogFile 0 fs name = (fs.rename name (numberedName name k), name) := by
      simp [prepareLogFile, hfile, hf]
    have hnn := numberedName_ne name k
    have hn : (fs.rename name (numberedName name k)) name = none := by
      simp [FileSystem.rename, hnn.symm]
    have hopen : ∀ q, (fs.rename name (numberedName name k)).openTruncate empty name q =
        if q = name then some (.regular empty)
        else (fs.rename name (numberedName name k)) q := by
      intro q
      simp only [FileSystem.openTruncate, hn]
    refine ⟨k, a, by unfold freeTries at b; omega, c, d, ?_, ?_, ?_, ?_⟩
    · simp [initializeLogging, hprep, hlog]
    · simp only [initializeLogging, hprep, hlog, if_true, hopen, hnn, if_false]
      simp [FileSystem.rename, hfile]
    · simp only [initializeLogging, hprep, hlog, if_true, hopen]
    · intro p hp1 hp2
      simp only [initializeLogging, hprep, hlog, if_true, hopen, hp1, if_false]
      simp [FileSystem.rename, hp1, hp2]

/-- **C133.** Rank 0 destroys no file: what a regular file held before the call is held by a regular
file after it. -/
theorem log_rank0_destroys_nothing {C : Type*} (empty : C) (ranks : List ℤ) (fs : FileSystem C)
    (name : List Char)
    (hfree : ∃ i, 1 ≤ i ∧ i < 2 ^ 31 - 1 ∧ fs (numberedName name i) = none) (p : List Char)
    (content : C) (hp : fs p = some (.regular content)) :
    ∃ q, (initializeLogging empty ranks 0 fs name).2 q = some (.regular content) := by
  obtain ⟨i0, h1, h2, h3⟩ := hfree
  cases hf : firstFree fs name freeTries 1 with
  | none => exact absurd h3 (firstFree_none fs name _ _ hf i0 h1 (by unfold freeTries; omega))
  | some k =>
    obtain ⟨a, b, c, d⟩ := firstFree_some fs name _ _ _ hf
    have hnn := numberedName_ne name k
    cases hname : fs name with
    | none =>
      have hprep : prepareLogFile 0 fs name = (fs, name) := by simp [prepareLogFile, hname]
      have hpn : p ≠ name := by rintro rfl; rw [hname] at hp; cases hp
      refine ⟨p, ?_⟩
      by_cases hl : (0 : ℤ) ∈ ranks
      · simp [initializeLogging, hprep, hl, FileSystem.openTruncate, hname, hpn, hp]
      · simp [initializeLogging, hprep, hl, hp]
    | some e =>
      cases e with
      | other =>
        have hprep : prepareLogFile 0 fs name = (fs, numberedName name k) := by
          simp [prepareLogFile, hname, hf]
        have hpn : p ≠ numberedName name k := by
          rintro rfl; rw [c] at hp; cases hp
        refine ⟨p, ?_⟩
        by_cases hl : (0 : ℤ) ∈ ranks
        · simp [initializeLogging, hprep, hl, FileSystem.openTruncate, c, hpn, hp]
        · simp [initializeLogging, hprep, hl, hp]
      | regular c0 =>
        have hprep : prepareLogFile 0 fs name = (fs.rename name (numberedName name k), name) := by
          simp [prepareLogFile, hname, hf]
        have hn : (fs.rename name (numberedName name k)) name = none := by
          simp [FileSystem.rename, hnn.symm]
        have hopen : ∀ q, (fs.rename name (numberedName name k)).openTruncate empty name q =
            if q = name then some (.regular empty)
            else (fs.rename name (numberedName name k)) q := by
          intro q
          simp only [FileSystem.openTruncate, hn]
        have hmoved : ∃ q, q ≠ name ∧
            (fs.rename name (numberedName name k)) q = some (.regular content) := by
          by_cases hpn : p = name
          · subst hpn
            exact ⟨numberedName p k, hnn, by simp [FileSystem.rename, hp]⟩
          · refine ⟨p, hpn, ?_⟩
            have : p ≠ numberedName name k := by
              rintro rfl; rw [c] at hp; cases hp
            simp [FileSystem.rename, hpn, this, hp]
        obtain ⟨q, hq, hq2⟩ := hmoved
        refine ⟨q, ?_⟩
        by_cases hl : (0 : ℤ) ∈ ranks
        · simp only [initializeLogging, hprep, hl, if_true, hopen, hq, if_false, hq2]
        · simp only [initializeLogging, hprep, hl, if_false, hq2]

/-- **C133**, a disagreement: every other rank that logs overwrites the log of the previous run. -/
theorem log_other_ranks_overwrite {C : Type*} (empty : C) (ranks : List ℤ) (rank : ℤ)
    (hrank : rank ≠ 0) (hlog : rank ∈ ranks) (fs : FileSystem C) (name : List Char) (content : C)
    (hfile : fs name = some (.regular content)) :
    (initializeLogging empty ranks rank fs name).2 = fun q =>
      if q = name then some (.regular empty) else fs q := by
  have hprep : prepareLogFile rank fs name = (fs, name) := by simp [prepareLogFile, hrank]
  simp [initializeLogging, hprep, hlog, FileSystem.openTruncate, hfile]

/-- A file system with an old log and one numbered copy: the old log becomes number 2. -/
example : let fs : FileSystem ℕ := fun p =>
      if p = ['a'] then some (.regular 7) else if p = ['a', '.', '1'] then some (.regular 6) else none
    fs ['a'] = some (.regular 7) ∧ (∃ i, 1 ≤ i ∧ i < 2 ^ 31 - 1 ∧ fs (numberedName ['a'] i) = none) ∧
    (0 : ℤ) ∈ [(0 : ℤ), 1] := by
  refine ⟨rfl, ⟨2, by omega, by omega, by decide⟩, by simp⟩

end Fub
