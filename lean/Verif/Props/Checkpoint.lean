import Verif.Lemmas.Checkpoint
import Mathlib.Data.Set.Finite.Lattice
import Mathlib.Order.Interval.Finset.Basic
import Mathlib.Order.Interval.Set.Infinite
import Mathlib.Data.Int.Interval
import Mathlib.Data.Set.Finite.Lemmas
import Mathlib.Data.Finite.Prod

/-!
# Checkpoints and restarts
-/

namespace Fub

/-! ### Numbers survive the text of the header -/

/-- Every number of the format binary64 is read back exactly from 17 significant decimal digits, for every rule for ties of the printer and of the reader. -/
theorem seventeen_digits {x q y : ℚ} (hx : IsDouble x) (hq : Printed 17 x q) (hy : NearestDouble q y) : y = x := by
  by_contra hne
  have h1 := double_dist hx hy.1 (Ne.symm hne)
  have h2 := printed_close hq
  have h3 := hy.2 x hx
  have h4 : |x - y| ≤ |x - q| + |q - y| := abs_sub_le x q y
  rw [abs_sub_comm q x] at h3
  have e : (10 : ℚ) ^ (((17 : ℕ) : ℤ) - 1) = 10 ^ 16 := by norm_num
  rw [e] at h2
  linarith

/-- Six digits, the default precision of a stream, are not enough. -/
theorem six_digits_lose : ∃ x q : ℚ, IsDouble x ∧ Printed 6 x q ∧ ∀ y, NearestDouble q y → y ≠ x := by
  refine ⟨1234567, 1234570, ⟨1234567, 0, by norm_num, by norm_num, by norm_num, by norm_num⟩, ?_, ?_⟩
  · have hl : Int.log 10 |(1234567 : ℚ)| = 6 := by
      rw [abs_of_pos (by norm_num)]
      have h := Int.log_natCast (R := ℚ) 10 1234567
      have h2 : Nat.log 10 1234567 = 6 := by decide +kernel
      rw [h2] at h
      exact_mod_cast h
    unfold Printed
    rw [if_neg (by norm_num), hl]
    refine ⟨123457, by norm_num, ?_⟩
    rw [show (1234567 : ℚ) - 1234570 = -3 by norm_num]
    norm_num
  · rintro y hy rfl
    have h := hy.2 1234570 ⟨1234570, 0, by norm_num, by norm_num, by norm_num, by norm_num⟩
    norm_num at h

/-- A printer that satisfies the specification. -/
def roundDigits (n : ℕ) (x : ℚ) : ℚ := if x = 0 then 0 else (round (x / 10 ^ (Int.log 10 |x| + 1 - n)) : ℚ) * 10 ^ (Int.log 10 |x| + 1 - n)

theorem roundDigits_printed (n : ℕ) (x : ℚ) : Printed n x (roundDigits n x) := by
  unfold Printed roundDigits
  by_cases hx : x = 0
  · simp [hx]
  · simp only [hx, if_false]
    refine ⟨_, rfl, ?_⟩
    generalize Int.log 10 |x| + 1 - (n : ℤ) = e
    have hp : (0 : ℚ) < 10 ^ e := zpow_pos (by norm_num) e
    have h := abs_sub_round (x / 10 ^ e)
    have e1 : x - (round (x / 10 ^ e) : ℚ) * 10 ^ e = (x / 10 ^ e - (round (x / 10 ^ e) : ℚ)) * 10 ^ e := by
      field_simp
    rw [e1, abs_mul, abs_of_pos hp]
    nlinarith

/-- A reader that satisfies the specification exists. -/
theorem reader_exists : ∃ parse : ℚ → ℚ, ∀ q, NearestDouble q (parse q) := by
  have hfin : {x : ℚ | IsDouble x}.Finite := by
    have : {x : ℚ | IsDouble x} ⊆ (fun p : ℤ × ℤ => (p.1 : ℚ) * 2 ^ p.2) '' (Set.Icc (-(2 ^ 53)) (2 ^ 53) ×ˢ Set.Icc (-1074) 971) := by
      rintro x ⟨m, e, hm, h1, h2, rfl⟩
      rw [abs_lt] at hm
      exact ⟨(m, e), ⟨⟨by linarith [hm.1], by linarith [hm.2]⟩, h1, h2⟩, rfl⟩
    exact Set.Finite.subset (Set.Finite.image _ (Set.Finite.prod (Set.toFinite _) (Set.toFinite _))) this
  have hne : {x : ℚ | IsDouble x}.Nonempty := ⟨0, 0, 0, by norm_num, by norm_num, by norm_num, by norm_num⟩
  have : ∀ q : ℚ, ∃ y, NearestDouble q y := by
    intro q
    obtain ⟨y, hy, hmin⟩ := Set.exists_min_image _ (fun y => |q - y|) hfin hne
    exact ⟨y, hy, hmin⟩
  choose f hf using this
  exact ⟨f, hf⟩

/-! ### Writing and reading -/

section
variable {B D N : Type} [DecidableEq B]

/-- The data files after writing. -/
theorem ckWrite_data {K : Type} (fmt : K → K) (title : String) (h : List (CkLevel K B D N)) :
    (ckWrite fmt title h).header = some (ckHeader fmt title h) ∧ ∀ l, (ckWrite fmt title h).data l = (h[l]?).map (fun v => .full v.data) := by
  have key : ∀ (h : List (CkLevel K B D N)) (off : ℕ) (s : CkDir K B D),
      let r := (h.mapIdx (fun l v => (CkOp.level (l + off) v.data : CkOp K B D))).foldl (fun s op => op.done s) s
      r.header = s.header ∧ ∀ l, r.data l = if off ≤ l ∧ l < off + h.length then (h[l - off]?).map (fun v => .full v.data) else s.data l := by
    intro h
    induction h with
    | nil => intro off s; exact ⟨rfl, fun l => by simp⟩
    | cons v h ih =>
      intro off s
      rw [List.mapIdx_cons, List.foldl_cons]
      have e : (fun (i : ℕ) (v : CkLevel K B D N) => (CkOp.level (i + 1 + off) v.data : CkOp K B D)) = fun i v => CkOp.level (i + (off + 1)) v.data := by
        funext i v; congr 1; omega
      rw [e]
      obtain ⟨h1, h2⟩ := ih (off + 1) ((CkOp.level (0 + off) v.data : CkOp K B D).done s)
      refine ⟨by rw [h1]; rfl, fun l => ?_⟩
      rw [h2 l]
      simp only [CkOp.done, List.length_cons, Nat.zero_add]
      by_cases hl : l = off
      · subst hl
        simp
      · rw [Function.update_of_ne hl]
        by_cases hc : off + 1 ≤ l ∧ l < off + 1 + h.length
        · rw [if_pos hc, if_pos (by omega)]
          have : l - off = (l - (off + 1)) + 1 := by omega
          rw [this, List.getElem?_cons_succ]
        · rw [if_neg hc, if_neg (by omega)]
  have e : (fun (l : ℕ) (v : CkLevel K B D N) => (CkOp.level l v.data : CkOp K B D)) = fun l v => CkOp.level (l + 0) v.data := rfl
  unfold ckWrite ckOps
  rw [List.foldl_cons, e]
  obtain ⟨h1, h2⟩ := key h 0 ((CkOp.header (ckHeader fmt title h)).done CkDir.clean)
  refine ⟨by rw [h1]; rfl, fun l => ?_⟩
  rw [h2 l]
  by_cases hl : l < h.length
  · rw [if_pos ⟨Nat.zero_le _, by omega⟩]; rfl
  · rw [if_neg (by omega), List.getElem?_eq_none (by omega)]; rfl

omit [DecidableEq B] in
theorem ckReadData_full (g : ℚ → ℚ) (s : CkDir ℚ B D) (h : List (CkLevel ℚ B D N)) (lev : ℕ) (hs : ∀ l, l < h.length → s.data (lev + l) = (h[l]?).map (fun v => .full v.data)) :
    ckReadData s lev (h.map (fun l => (g l.time, l.cycles, l.boxes)))
      = some (h.map (fun l => ({ l with time := g l.time, nodes := none, faces := none } : CkLevel ℚ B D N))) := by
  induction h generalizing lev with
  | nil => rfl
  | cons v h ih =>
    have h0 := hs 0 (by simp)
    simp only [Nat.add_zero, List.getElem?_cons_zero, Option.map_some] at h0
    rw [List.map_cons, ckReadData, h0]
    dsimp only
    rw [ih (lev + 1) (fun l hl => by
      have := hs (l + 1) (by simp only [List.length_cons]; omega)
      rw [show lev + 1 + l = lev + (l + 1) by omega, this, List.getElem?_cons_succ])]
    rfl

/-- Whatever the printer and the reader do within their specification: reading a checkpoint restores, for every hierarchy whose time points are numbers of the format binary64, the number of levels and the
time point, the cycles, the box array and the data of every level. (Node and face data are not restored, see `checkpoint_forgets_nodes_partial`.) -/
theorem checkpoint_round_trip (fmt parse : ℚ → ℚ) (hfmt : ∀ x, Printed 17 x (fmt x)) (hparse : ∀ q, NearestDouble q (parse q)) (title : String)
    (h : List (CkLevel ℚ B D N)) (hd : ∀ l ∈ h, IsDouble l.time) (hn : ∀ l ∈ h, l.nodes = none ∧ l.faces = none) :
    ckRead parse (ckWrite fmt title h) = some h := by
  obtain ⟨w1, w2⟩ := ckWrite_data fmt title h
  unfold ckRead
  rw [w1]
  dsimp only
  rw [ckReadHeader_write]
  dsimp only
  rw [ckReadData_full (fun t => parse (fmt t)) _ h 0 (fun l _ => by rw [Nat.zero_add]; exact w2 l)]
  congr 1
  conv_rhs => rw [← List.map_id h]
  apply List.map_congr_left
  intro l hl
  obtain ⟨n1, n2⟩ := hn l hl
  have : parse (fmt l.time) = l.time := seventeen_digits (hd l hl) (hfmt _) (hparse _)
  cases l
  simp_all

/-- The hierarchy of a cut-cell grid is restored when the options ask for as many levels as were written. -/
theorem cut_checkpoint_round_trip (fmt parse : ℚ → ℚ) (hfmt : ∀ x, Printed 17 x (fmt x)) (hparse : ∀ q, NearestDouble q (parse q)) (title : String)
    (h : List (CkLevel ℚ B D N)) (hd : ∀ l ∈ h, IsDouble l.time) (hn : ∀ l ∈ h, l.nodes = none ∧ l.faces = none) :
    ckReadCut parse h.length (ckWrite fmt title h) = some (h.map some) := by
  unfold ckReadCut
  rw [checkpoint_round_trip fmt parse hfmt hparse title h hd hn]
  simp

/-- If the options of the restarted run ask for another number of levels, a cut-cell checkpoint cannot be read, or the hierarchy has levels without data. -/
theorem cut_checkpoint_levels_partial (fmt parse : ℚ → ℚ) (hfmt : ∀ x, Printed 17 x (fmt x)) (hparse : ∀ q, NearestDouble q (parse q)) (title : String)
    (h : List (CkLevel ℚ B D N)) (hd : ∀ l ∈ h, IsDouble l.time) (hn : ∀ l ∈ h, l.nodes = none ∧ l.faces = none) (maxLevels : ℕ) :
    (maxLevels < h.length → ckReadCut (N := N) parse maxLevels (ckWrite fmt title h) = none)
    ∧ (h.length < maxLevels → ∃ r, ckReadCut (N := N) parse maxLevels (ckWrite fmt title h) = some r ∧ r.length = maxLevels ∧ r[h.length]? = some none) := by
  unfold ckReadCut
  rw [checkpoint_round_trip fmt parse hfmt hparse title h hd hn]
  constructor
  · intro hm
    simp [hm]
  · intro hm
    refine ⟨h.map some ++ List.replicate (maxLevels - h.length) none, ?_, ?_, ?_⟩
    · simp only
      rw [if_neg (by omega)]
    · simp; omega
    · rw [List.getElem?_append_right (by simp), List.length_map, Nat.sub_self, List.getElem?_replicate, if_pos (by omega)]

/-- Node and face data are lost: a hierarchy that has them is never restored. -/
theorem checkpoint_forgets_nodes_partial (fmt parse : ℚ → ℚ) (title : String) (h : List (CkLevel ℚ B D N)) :
    ∃ r, ckRead parse (ckWrite fmt title h) = some r ∧ (∀ l ∈ r, l.nodes = none ∧ l.faces = none)
      ∧ ((∃ l ∈ h, l.nodes ≠ none ∨ l.faces ≠ none) → r ≠ h) := by
  obtain ⟨w1, w2⟩ := ckWrite_data fmt title h
  refine ⟨h.map (fun l => ({ l with time := parse (fmt l.time), nodes := none, faces := none } : CkLevel ℚ B D N)), ?_, ?_, ?_⟩
  · unfold ckRead
    rw [w1]
    dsimp only
    rw [ckReadHeader_write]
    dsimp only
    rw [ckReadData_full (fun t => parse (fmt t)) _ h 0 (fun l _ => by rw [Nat.zero_add]; exact w2 l)]
  · intro l hl
    rw [List.mem_map] at hl
    obtain ⟨l', -, rfl⟩ := hl
    exact ⟨rfl, rfl⟩
  · rintro ⟨l, hl, hne⟩ heq
    rw [← heq, List.mem_map] at hl
    obtain ⟨l', -, rfl⟩ := hl
    simp at hne

/-- A checkpoint with more levels than the options of the restarted run allow is read, but the gridding algorithm then writes beyond its arrays. -/
theorem checkpoint_too_many_levels_partial (fmt parse : ℚ → ℚ) (hfmt : ∀ x, Printed 17 x (fmt x)) (hparse : ∀ q, NearestDouble q (parse q)) (title : String)
    (h : List (CkLevel ℚ B D N)) (hd : ∀ l ∈ h, IsDouble l.time) (hn : ∀ l ∈ h, l.nodes = none ∧ l.faces = none) (maxLevels : ℕ) :
    (ckRead (N := N) parse (ckWrite fmt title h)).bind (ckGridding maxLevels) = if h.length ≤ maxLevels then some h else none := by
  rw [checkpoint_round_trip fmt parse hfmt hparse title h hd hn]
  simp only [Option.bind_some, ckGridding]
  by_cases hm : maxLevels < h.length
  · rw [if_pos hm, if_neg (by omega)]
  · rw [if_neg hm, if_pos (by omega)]

/-! ### Interruptions -/

omit [DecidableEq B] in
/-- Whatever an interrupted writer did, in whatever order, is described by `PartialDir`. -/
theorem exec_partial {K : Type} (fmt : K → K) (title : String) (h : List (CkLevel K B D N)) (s s' : CkDir K B D) (hs : PartialDir fmt title h s)
    (hex : CkExec (ckOps fmt title h) s s') : PartialDir fmt title h s' := by
  generalize hops : ckOps fmt title h = ops at hex
  have hlev : ∀ l d, CkOp.level l d ∈ ops → ∃ v, h[l]? = some v ∧ v.data = d := by
    intro l d hm
    rw [← hops, ckOps, List.mem_cons] at hm
    rcases hm with hm | hm
    · simp at hm
    · rw [List.mem_mapIdx] at hm
      obtain ⟨i, hi, he⟩ := hm
      simp only [CkOp.level.injEq] at he
      obtain ⟨rfl, rfl⟩ := he
      exact ⟨h[i], List.getElem?_eq_getElem hi, rfl⟩
  have hhead : ∀ ts, CkOp.header ts ∈ ops → ts = ckHeader fmt title h := by
    intro ts hm
    rw [← hops, ckOps, List.mem_cons] at hm
    rcases hm with hm | hm
    · simpa using hm
    · rw [List.mem_mapIdx] at hm
      obtain ⟨i, hi, he⟩ := hm
      simp at he
  induction hex with
  | nil s => exact hs
  | done op s s' hm _ ih =>
    apply ih
    cases op with
    | header ts =>
      have := hhead ts hm
      exact ⟨Or.inr (Or.inr (by rw [← this]; rfl)), hs.data⟩
    | level l d =>
      obtain ⟨v, hv, rfl⟩ := hlev l d hm
      refine ⟨hs.header, fun l' => ?_⟩
      by_cases hl : l' = l
      · subst hl
        exact Or.inr (Or.inr ⟨v, hv, by simp [CkOp.done]⟩)
      · simp only [CkOp.done, Function.update_of_ne hl]
        exact hs.data l'
  | tornHeader ts u s s' hm ht _ ih =>
    apply ih
    have := hhead ts hm
    subst this
    exact ⟨Or.inr (Or.inl ⟨u, ht, rfl⟩), hs.data⟩
  | tornLevel l d s s' hm _ ih =>
    apply ih
    refine ⟨hs.header, fun l' => ?_⟩
    by_cases hl : l' = l
    · subst hl
      exact Or.inr (Or.inl (by simp))
    · simp only [Function.update_of_ne hl]
      exact hs.data l'

omit [DecidableEq B] in
theorem ckReadData_partial (g : ℚ → ℚ) (s : CkDir ℚ B D) (h : List (CkLevel ℚ B D N)) (lev : ℕ)
    (hs : ∀ l, l < h.length → s.data (lev + l) = none ∨ s.data (lev + l) = some .torn ∨ s.data (lev + l) = (h[l]?).map (fun v => .full v.data)) :
    ckReadData (N := N) s lev (h.map (fun l => (g l.time, l.cycles, l.boxes))) = none
    ∨ ckReadData s lev (h.map (fun l => (g l.time, l.cycles, l.boxes)))
      = some (h.map (fun l => ({ l with time := g l.time, nodes := none, faces := none } : CkLevel ℚ B D N))) := by
  induction h generalizing lev with
  | nil => right; rfl
  | cons v h ih =>
    have h0 := hs 0 (by simp)
    simp only [Nat.add_zero, List.getElem?_cons_zero, Option.map_some] at h0
    rw [List.map_cons, ckReadData]
    rcases h0 with h0 | h0 | h0
    · left; rw [h0]
    · left; rw [h0]
    · rw [h0]
      dsimp only
      rcases ih (lev + 1) (fun l hl => by
        have := hs (l + 1) (by simp only [List.length_cons]; omega)
        rw [show lev + 1 + l = lev + (l + 1) by omega]
        simpa using this) with hr | hr
      · left; rw [hr]; rfl
      · right; rw [hr]; rfl

/-- However the writer of a checkpoint is interrupted, and in whatever order its processes complete the files: reading the directory either fails or gives the whole hierarchy that was to be
written. No checkpoint is ever read in part. -/
theorem checkpoint_all_or_nothing (fmt parse : ℚ → ℚ) (hfmt : ∀ x, Printed 17 x (fmt x)) (hparse : ∀ q, NearestDouble q (parse q)) (title : String)
    (h : List (CkLevel ℚ B D N)) (hne : h ≠ []) (hd : ∀ l ∈ h, IsDouble l.time) (hn : ∀ l ∈ h, l.nodes = none ∧ l.faces = none)
    (s : CkDir ℚ B D) (hex : CkExec (ckOps fmt title h) CkDir.clean s) :
    ckRead (N := N) parse s = none ∨ ckRead parse s = some h := by
  have hs : PartialDir fmt title h s := exec_partial fmt title h CkDir.clean s ⟨Or.inl rfl, fun _ => Or.inl rfl⟩ hex
  have hfin : (h.map (fun l => ({ l with time := parse (fmt l.time), nodes := none, faces := none } : CkLevel ℚ B D N))) = h := by
    conv_rhs => rw [← List.map_id h]
    apply List.map_congr_left
    intro l hl
    obtain ⟨n1, n2⟩ := hn l hl
    have : parse (fmt l.time) = l.time := seventeen_digits (hd l hl) (hfmt _) (hparse _)
    cases l
    simp_all
  have hdata := ckReadData_partial (N := N) (fun t => parse (fmt t)) s h 0 (fun l hl => by
    rw [Nat.zero_add]
    rcases hs.data l with hl' | hl' | ⟨v, hv, hl'⟩
    · exact Or.inl hl'
    · exact Or.inr (Or.inl hl')
    · exact Or.inr (Or.inr (by rw [hl', hv]; rfl)))
  rw [hfin] at hdata
  have hhead : ∀ ts, ckReadHeader parse ts = none ∨ ckReadHeader parse ts = some (h.map (fun l => (parse (fmt l.time), l.cycles, l.boxes))) →
      s.header = some ts → ckRead (N := N) parse s = none ∨ ckRead parse s = some h := by
    intro ts hts hst
    unfold ckRead
    rw [hst]
    dsimp only
    rcases hts with hts | hts
    · left; rw [hts]
    · rw [hts]; exact hdata
  rcases hs.header with h0 | ⟨u, hu, h0⟩ | h0
  · left; unfold ckRead; rw [h0]
  · exact hhead u (torn_header fmt parse title h hne u hu) h0
  · exact hhead _ (Or.inr (ckReadHeader_write fmt parse title h)) h0

end

/-! ### Several blocks -/

section
variable {B D N A : Type} [DecidableEq B]

theorem ckMapM_some {α β : Type} (f : α → Option β) (g : α → β) (is : List α) (h : ∀ i ∈ is, f i = some (g i)) : is.mapM f = some (is.map g) := by
  induction is with
  | nil => rfl
  | cons a t ih =>
    rw [List.mapM_cons, h a (by simp), ih (fun i hi => h i (by simp [hi]))]
    rfl

/-- A checkpoint of several blocks is restored block by block. -/
theorem blocks_round_trip (fmt parse : ℚ → ℚ) (hfmt : ∀ x, Printed 17 x (fmt x)) (hparse : ∀ q, NearestDouble q (parse q))
    (hs : List (List (CkLevel ℚ B D N))) (a : A) (s : CkStore ℚ B D A)
    (hd : ∀ h ∈ hs, ∀ l ∈ h, IsDouble l.time ∧ l.nodes = none ∧ l.faces = none) :
    ckReadAll parse hs.length (ckWriteAll fmt hs a s) = some (hs, a) := by
  unfold ckReadAll
  have h1 : (List.range hs.length).mapM (fun i => ckRead (N := N) parse ((ckWriteAll fmt hs a s).block i)) = some ((List.range hs.length).map (fun i => (hs[i]?).getD [])) := by
    apply ckMapM_some
    intro i hi
    rw [List.mem_range] at hi
    simp only [ckWriteAll, ckWriteBlocks, hi, if_true, List.getElem?_eq_getElem hi, Option.getD_some]
    have hm := hd hs[i] (List.getElem_mem hi)
    exact checkpoint_round_trip fmt parse hfmt hparse _ _ (fun l hl => (hm l hl).1) (fun l hl => (hm l hl).2)
  have h2 : (List.range hs.length).map (fun i => (hs[i]?).getD []) = hs := by
    apply List.ext_getElem
    · simp
    · intro i h _
      simp at h
      simp [List.getElem?_eq_getElem h]
  rw [h1, h2]
  rfl

/-- If the writer is interrupted in a directory that holds no older checkpoint, the checkpoint cannot be read: the archive is written last. -/
theorem blocks_fresh_interrupted (fmt parse : ℚ → ℚ) (hs : List (List (CkLevel ℚ B D N))) (k n : ℕ) (s : CkStore ℚ B D A)
    (hs0 : s.aux = none ∨ s.aux = some .torn) : ckReadAll (N := N) parse n (ckWriteBlocks fmt hs k s) = none := by
  unfold ckReadAll
  have : (ckWriteBlocks fmt hs k s).aux = s.aux := rfl
  rw [this]
  rcases hs0 with h | h <;> rw [h] <;> split <;> simp_all

/-- If the writer is interrupted in a directory that holds an older checkpoint, the mixture of the new and of the old blocks, with the old archive, is read without complaint. -/
theorem blocks_mixed_partial (fmt parse : ℚ → ℚ) (hfmt : ∀ x, Printed 17 x (fmt x)) (hparse : ∀ q, NearestDouble q (parse q))
    (old new : List (List (CkLevel ℚ B D N))) (a : A) (s : CkStore ℚ B D A) (hlen : new.length = old.length) (k : ℕ) (hk : k ≤ old.length)
    (hd : ∀ h ∈ old ++ new, ∀ l ∈ h, IsDouble l.time ∧ l.nodes = none ∧ l.faces = none) :
    ckReadAll parse old.length (ckWriteBlocks fmt new k (ckWriteAll fmt old a s)) = some (new.take k ++ old.drop k, a) := by
  unfold ckReadAll
  have h1 : (List.range old.length).mapM (fun i => ckRead (N := N) parse ((ckWriteBlocks fmt new k (ckWriteAll fmt old a s)).block i))
      = some ((List.range old.length).map (fun i => ((if i < k then new else old)[i]?).getD [])) := by
    apply ckMapM_some
    intro i hi
    rw [List.mem_range] at hi
    by_cases hik : i < k
    · have hi' : i < new.length := by omega
      simp only [ckWriteBlocks, hik, if_true, List.getElem?_eq_getElem hi', Option.getD_some]
      have hm := hd new[i] (by rw [List.mem_append]; exact Or.inr (List.getElem_mem hi'))
      exact checkpoint_round_trip fmt parse hfmt hparse _ _ (fun l hl => (hm l hl).1) (fun l hl => (hm l hl).2)
    · simp only [ckWriteBlocks, ckWriteAll, hik, if_false, hi, if_true, List.getElem?_eq_getElem hi, Option.getD_some]
      have hm := hd old[i] (by rw [List.mem_append]; exact Or.inl (List.getElem_mem hi))
      exact checkpoint_round_trip fmt parse hfmt hparse _ _ (fun l hl => (hm l hl).1) (fun l hl => (hm l hl).2)
  have h2 : (List.range old.length).map (fun i => ((if i < k then new else old)[i]?).getD []) = new.take k ++ old.drop k := by
    apply List.ext_getElem
    · simp; omega
    · intro i h _
      simp at h
      by_cases hik : i < k
      · rw [List.getElem_append_left (by simp; omega)]
        simp [hik, List.getElem?_eq_getElem (show i < new.length by omega)]
      · rw [List.getElem_append_right (by simp; omega)]
        have e : k + (i - min k new.length) = i := by omega
        simp [hik, List.getElem?_eq_getElem h, e]
  rw [h1, h2]
  rfl

end

/-- The refinement ratio is not part of a checkpoint: with another one every cell of a refined level is at another place. -/
theorem checkpoint_ratio_unchecked_partial {K : Type} [Field K] [LinearOrder K] [IsStrictOrderedRing K] (lo dx : K) (hdx : 0 < dx) (r r' l : ℕ) (hr : 0 < r)
    (hrr : r < r') (i : ℤ) (hi : i ≠ 0) : ckPosition lo dx r (l + 1) i ≠ ckPosition lo dx r' (l + 1) i := by
  unfold ckPosition
  intro h
  have hi' : (i : K) ≠ 0 := by exact_mod_cast hi
  have h1 := mul_left_cancel₀ hi' (add_left_cancel h)
  have hp : (0 : K) < (r : K) ^ (l + 1) := pow_pos (by exact_mod_cast hr) _
  have hlt : (r : K) ^ (l + 1) < (r' : K) ^ (l + 1) := pow_lt_pow_left₀ (by exact_mod_cast hrr) (by positivity) (by omega)
  have h2 := div_lt_div_of_pos_left hdx hp hlt
  exact absurd h1 (ne_of_gt h2)

/-! ### Archives of further state -/

/-- The state of a pressure valve is restored. -/
theorem valve_round_trip {K : Type} (v : Valve K) : loadValve (saveValve v) = some v := by
  cases v with
  | mk st t => cases st <;> rfl

/-- The ignition times of all tubes are restored, if the number of tubes is the same. -/
theorem ignition_round_trip {K : Type} (tubes : List (List K)) : loadIgnition tubes.length (saveIgnition tubes) = some tubes := by
  simp [loadIgnition, saveIgnition]

/-- The vectors get the length of the archive, whatever number of levels the restarted run has, and additional tubes of the archive are dropped silently. -/
theorem ignition_length_partial {K : Type} (n : ℕ) (a : List (List K)) (hn : n ≤ a.length) :
    ∃ r, loadIgnition n (saveIgnition a) = some r ∧ r.length = n ∧ ∀ i, i < n → r[i]? = a[i]? := by
  refine ⟨a.take n, ?_, ?_, ?_⟩
  · show (if a.length < n then none else some (a.take n)) = _
    rw [if_neg (by omega)]
  · simp; omega
  · intro i hi
    rw [List.getElem?_take, if_pos hi]

/-- Saving leaves finite durations alone; every other duration is changed to the lowest number, in the archive and in the running program. -/
theorem saving_duration {K : Type} (lowest : K) (d : CkDur K) : (d.saved lowest = d ↔ ∃ x, d = .fin x) ∧ ((¬ ∃ x, d = .fin x) → d.saved lowest = .fin lowest) := by
  cases d <;> simp [CkDur.saved, CkDur.save]

/-- The time at which a valve of a tube with a compressor was opened is not part of the checkpoints of the examples: while the valve is open a restarted run lets the
inflow start anew. -/
theorem restart_forgets_opening_partial {K : Type} [Field K] [LinearOrder K] [IsStrictOrderedRing K] (c : Plenum K) (hc : c.sec = true) (inner time t0 : K)
    (hin : inner ≤ c.pressure) :
    genericValveFill .switchToSec (some t0) (some inner) c time = some (some t0, .inflow (time - t0))
    ∧ genericValveFill .switchToSec none (some inner) c time = some (some time, .inflow 0) := by
  have h : ¬ c.pressure < inner := not_lt.mpr hin
  constructor <;> simp [genericValveFill, changeTOpened, isBlocked, fleOpt, fgtOpt, hc, hin, h]

/-! ### Restarting a run -/

section
variable {K G Opt Meth Cb : Type} [DecidableEq K]

omit [DecidableEq K] in
theorem reset_restart_data (c : Ctx K G Opt Meth Cb) (hier : List (HierLevel K G)) :
    ((restartCtx c hier).reset 0).data = hier.map (fun h => ⟨h.time, h.time, h.cycles, h.data⟩) := by
  simp only [restartCtx, Ctx.reset]
  apply List.ext_getElem
  · simp
  · intro i _ _
    simp [resetLevel]

/-- **C150 (first state).** A run that is restarted from a checkpoint file begins with the levels of the run that wrote it: the time point on both clocks, the cycles, the
boxes and the data. -/
theorem restart_from_file {B D N Opt Meth Cb : Type} [DecidableEq B] (fmt parse : ℚ → ℚ) (hfmt : ∀ x, Printed 17 x (fmt x)) (hparse : ∀ q, NearestDouble q (parse q)) (title : String)
    (h : List (CkLevel ℚ B D N)) (hd : ∀ l ∈ h, IsDouble l.time) (hn : ∀ l ∈ h, l.nodes = none ∧ l.faces = none) (c : Ctx ℚ (B × D) Opt Meth Cb) :
    (ckRead (N := N) parse (ckWrite fmt title h)).map (fun r => ((restartCtx c (r.map CkLevel.toHier)).reset 0).data) =
      some (h.map fun l => ⟨l.time, l.time, l.cycles, (l.boxes, l.data)⟩) := by
  rw [checkpoint_round_trip fmt parse hfmt hparse title h hd hn, Option.map_some, reset_restart_data, List.map_map]
  rfl

omit [DecidableEq K] in
theorem restart_preAdvance (c : Ctx K G Opt Meth Cb) (hl : c.data.length = c.hier.length) :
    (restartCtx c c.hier).preAdvanceHierarchy = (restartCtx c c.hier).reset 0 := by
  unfold Ctx.preAdvanceHierarchy
  by_cases h : (restartCtx c c.hier).data.length ≠ (restartCtx c c.hier).hier.length
  · rw [if_pos h]
  · rw [if_neg h]
    have h0 : c.hier = [] := by
      simp only [restartCtx, List.length_nil, ne_eq, not_not] at h
      exact List.length_eq_zero_iff.mp h.symm
    simp [restartCtx, Ctx.reset, h0]

omit [DecidableEq K] in
theorem mark_rest (c : Ctx K G Opt Meth Cb) (hc : c.AtRest) :
    c.data.mapIdx (fun i d => if 0 ≤ i then { d with regridTime := d.time } else d) = c.hier.map (fun h => ⟨h.time, h.time, h.cycles, h.data⟩) := by
  apply List.ext_getElem
  · simp [hc.levels]
  · intro i h1 h2
    simp only [List.length_mapIdx, List.length_map] at h1 h2
    obtain ⟨a, b, d⟩ := hc.same i c.data[i] c.hier[i] (List.getElem?_eq_getElem h1) (List.getElem?_eq_getElem h2)
    simp [a, b, d]

omit [DecidableEq K] in
theorem unmarked_rest (c : Ctx K G Opt Meth Cb) (hc : c.AtRest) (hall : ∀ (l : ℕ) (d : LevelClock K G), c.data[l]? = some d → d.regridTime = d.time) :
    c.data = c.hier.map (fun h => ⟨h.time, h.time, h.cycles, h.data⟩) := by
  apply List.ext_getElem
  · simp [hc.levels]
  · intro i h1 h2
    simp only [List.length_map] at h1 h2
    obtain ⟨a, b, d⟩ := hc.same i c.data[i] c.hier[i] (List.getElem?_eq_getElem h1) (List.getElem?_eq_getElem h2)
    have e := hall i c.data[i] (List.getElem?_eq_getElem h1)
    rw [List.getElem_map, ← a, ← b, ← d]
    generalize c.data[i] = x at *
    cases x
    simp_all

theorem restart_preLevel (c : Ctx K G Opt Meth Cb) (hier : List (HierLevel K G)) (n : ℕ) :
    ((restartCtx c hier).reset 0).preAdvanceLevel 0 (0, n) = (restartCtx c hier).reset 0 := by
  unfold Ctx.preAdvanceLevel
  rw [reset_restart_data]
  cases hier with
  | nil => simp
  | cons h t => simp

omit [DecidableEq K] in
theorem applyRegrid_same (t : K) (acts : List (RegridAct G)) (hs : List (HierLevel K G)) (ha : ∀ a ∈ acts, a = .same) : applyRegrid t acts hs = hs := by
  induction acts generalizing hs with
  | nil => simp [applyRegrid]
  | cons a as ih =>
    have h0 := ha a (by simp)
    subst h0
    cases hs with
    | nil => simp [applyRegrid]
    | cons h hs => simp only [applyRegrid]; rw [ih hs (fun a h => ha a (by simp [h]))]

theorem firstChanged_same (m l : ℕ) (acts : List (RegridAct G)) (ha : ∀ a ∈ acts, a = .same) : firstChanged m l acts = m := by
  induction acts generalizing l with
  | nil => rfl
  | cons a as ih =>
    have h0 := ha a (by simp)
    subst h0
    simp only [firstChanged]
    exact ih _ (fun a h => ha a (by simp [h]))

/-- After `PreAdvanceLevel` of the coarsest level, the restarted and the continued run are in the same state, if the regrid at the time of the checkpoint finds nothing to change: `acts` are the decisions of that regrid,
which the restarted run does not make. -/
theorem restart_first_level (c : Ctx K G Opt Meth Cb) (hc : c.AtRest) (acts : List (RegridAct G)) (rest : List (List (RegridAct G))) (n : ℕ)
    (hacts : ∀ a ∈ acts, a = .same) (hscript : c.script = acts :: rest) (hmax : 1 < c.maxLevels) (hn : c.hier ≠ [])
    (hreg : ∀ d : LevelClock K G, c.data[0]? = some d → d.regridTime ≠ d.time) :
    c.preAdvanceHierarchy.preAdvanceLevel 0 (0, n)
      = (restartCtx { c with script := rest } c.hier).preAdvanceHierarchy.preAdvanceLevel 0 (0, n) := by
  have hr := restart_preAdvance { c with script := rest } hc.levels
  dsimp only at hr
  rw [hr, restart_preLevel]
  have hp : c.preAdvanceHierarchy = c := by
    unfold Ctx.preAdvanceHierarchy
    rw [if_neg (by simp [hc.levels])]
  rw [hp]
  obtain ⟨h, t, hh⟩ := List.exists_cons_of_ne_nil hn
  have hlen := hc.levels
  rw [hh, List.length_cons] at hlen
  obtain ⟨d, ds, hd⟩ := List.exists_cons_of_ne_nil (fun h0 : c.data = [] => by rw [h0] at hlen; simp at hlen)
  have hd0 : c.data[0]? = some d := by rw [hd]; rfl
  have hh0 : c.hier[0]? = some h := by rw [hh]; rfl
  have hreg' : c.regridAllFiner 0 = ({ c with script := rest }, c.maxLevels) := by
    unfold Ctx.regridAllFiner
    rw [if_pos (by omega), hscript, hh0]
    simp only [applyRegrid_same _ _ _ hacts, firstChanged_same _ _ _ hacts, List.take_append_drop]
  unfold Ctx.preAdvanceLevel
  simp only [if_true, hd0, ne_eq, hreg d hd0, not_false_eq_true, hreg', lt_irrefl, if_false]
  have e1 := mark_rest c hc
  have e2 := reset_restart_data { c with script := rest } c.hier
  simp only [Ctx.markRegrid]
  simp only [Nat.zero_le, if_true] at e1 ⊢
  rw [e1]
  simp only [restartCtx, Ctx.reset] at e2 ⊢
  rw [e2]

theorem restart_static_level (c : Ctx K G Opt Meth Cb) (hc : c.AtRest) (hscript : c.script = []) (n : ℕ) :
    c.preAdvanceLevel 0 (0, n) = (restartCtx c c.hier).reset 0 := by
  have e2 := reset_restart_data c c.hier
  have hrf : c.regridAllFiner 0 = (c, c.maxLevels) := by
    unfold Ctx.regridAllFiner
    rw [hscript]
    split <;> rfl
  unfold Ctx.preAdvanceLevel
  simp only [if_true, ne_eq, hrf, lt_irrefl, if_false]
  have hfin : ∀ c' : Ctx K G Opt Meth Cb, { c' with data := [] } = { c with data := [] } → c'.data = c.hier.map (fun h => ⟨h.time, h.time, h.cycles, h.data⟩) →
      c' = (restartCtx c c.hier).reset 0 := by
    intro c' h1 h2
    simp only [restartCtx, Ctx.reset] at e2 ⊢
    rw [e2]
    cases c'
    cases c
    simp_all
  cases h0 : c.data[0]? with
  | none =>
    refine hfin c rfl ?_
    have : c.data = [] := by simpa using h0
    have hl := hc.levels
    rw [this] at hl ⊢
    have : c.hier = [] := List.length_eq_zero_iff.mp hl.symm
    rw [this]; rfl
  | some d =>
    by_cases hd : d.regridTime = d.time
    · simp only [hd, not_true_eq_false, if_false]
      refine hfin c rfl (unmarked_rest c hc ?_)
      rcases hc.regrid with h | h
      · exact absurd hd (h d h0)
      · exact h
    · simp only [hd, not_false_eq_true, if_true]
      refine hfin _ rfl ?_
      exact mark_rest c hc

end

section
variable {K G Opt Meth Cb : Type} [Field K] [LinearOrder K]

/-- The two runs are in step: everything an observer can see is the same, and the solvers are equal or the second one is the restarted first one. -/
structure InStep (tr : List ((K × K × K × Option K) ⊕ (List (HierLevel K G) × K))) (a b : Config K (Ctx K G Opt Meth Cb)) : Prop where
  pc : a.pc = b.pc
  t : a.t = b.t
  failureDt : a.failureDt = b.failureDt
  backup : a.backup = b.backup
  trace : a.trace.map Event.seen = b.trace.map Event.seen ++ tr
  solver : a.solver = b.solver ∨ (a.solver.AtRest ∧ a.solver.script = [] ∧ b.solver = restartCtx a.solver a.solver.hier)

theorem InStep.hier {tr : List ((K × K × K × Option K) ⊕ (List (HierLevel K G) × K))} {a b : Config K (Ctx K G Opt Meth Cb)} (h : InStep tr a b) :
    a.solver.hier = b.solver.hier := by
  rcases h.solver with h | ⟨-, -, h⟩ <;> rw [h]; rfl

theorem endBody_inStep (σ : Solver K (Ctx K G Opt Meth Cb)) (o : RunOptions K) (w : Output K (Ctx K G Opt Meth Cb))
    (tr : List ((K × K × K × Option K) ⊕ (List (HierLevel K G) × K))) (a b : Config K (Ctx K G Opt Meth Cb)) (h : InStep tr a b) (hs : a.solver = b.solver) :
    InStep tr (RunLoop.endBody σ o w a) (RunLoop.endBody σ o w b) := by
  obtain ⟨p, s, bk, t, f, tra⟩ := a
  obtain ⟨p', s', bk', t', f', tra'⟩ := b
  obtain ⟨h1, h2, h3, h4, h5, h6⟩ := h
  dsimp only at *
  subst h1 h2 h3 h4 hs
  unfold RunLoop.endBody
  dsimp only
  have hem : InStep tr ⟨.outer, s, bk, t, f, Event.output s t :: tra⟩ ⟨.outer, s, bk, t, f, Event.output s t :: tra'⟩ :=
    ⟨rfl, rfl, rfl, rfl, by simp [h5], Or.inl rfl⟩
  split
  · split
    · exact ⟨rfl, rfl, rfl, rfl, h5, Or.inl rfl⟩
    · exact hem
    · split
      · exact ⟨rfl, rfl, rfl, rfl, h5, Or.inl rfl⟩
      · exact hem
      · exact ⟨rfl, rfl, rfl, rfl, h5, Or.inl rfl⟩
  · exact hem

theorem step_inStep (est : Ctx K G Opt Meth Cb → K) (advance body : Ctx K G Opt Meth Cb → K → Ctx K G Opt Meth Cb × Option K)
    (hadv : ∀ c dt, advance c dt = body (c.preAdvanceLevel 0 (0, 1)) dt) (hest : ∀ c c', c.SameButRegrid c' → est c = est c')
    (o : RunOptions K) (w : Output K (Ctx K G Opt Meth Cb)) (tr : List ((K × K × K × Option K) ⊕ (List (HierLevel K G) × K)))
    (a b : Config K (Ctx K G Opt Meth Cb)) (h : InStep tr a b) :
    InStep tr (RunLoop.step (ctxSolver est advance) o w a) (RunLoop.step (ctxSolver est advance) o w b) := by
  have hh := h.hier
  unfold RunLoop.step
  rw [← h.pc]
  cases hp : a.pc with
  | done => exact h
  | aborted => exact h
  | ub => exact h
  | outer =>
    dsimp only
    rw [← h.t]
    have hg : (ctxSolver est advance).gridCycles a.solver = (ctxSolver est advance).gridCycles b.solver := by simp only [ctxSolver, hh]
    rw [← hg]
    split
    · exact ⟨rfl, rfl, h.failureDt, h.backup, h.trace, h.solver⟩
    · exact ⟨rfl, rfl, h.failureDt, h.backup, h.trace, h.solver⟩
  | inner =>
    dsimp only
    -- the solvers agree as soon as the coarsest level is prepared
    have hpre : est ((ctxSolver est advance).preAdvance a.solver) = est ((ctxSolver est advance).preAdvance b.solver)
        ∧ ∀ dt, advance ((ctxSolver est advance).preAdvance a.solver) dt = advance ((ctxSolver est advance).preAdvance b.solver) dt := by
      rcases h.solver with e | ⟨hr, hs, e⟩
      · rw [e]; exact ⟨rfl, fun _ => rfl⟩
      · rw [e]
        have hpa : (ctxSolver est advance).preAdvance a.solver = a.solver := by
          show a.solver.preAdvanceHierarchy = a.solver
          unfold Ctx.preAdvanceHierarchy
          rw [if_neg (by simp [hr.levels])]
        have hpb : (ctxSolver est advance).preAdvance (restartCtx a.solver a.solver.hier) = (restartCtx a.solver a.solver.hier).reset 0 :=
          restart_preAdvance a.solver hr.levels
        rw [hpa, hpb]
        constructor
        · apply hest
          refine ⟨by simp [restartCtx, Ctx.reset], ?_⟩
          rw [reset_restart_data, List.map_map]
          apply List.ext_getElem
          · simp [hr.levels]
          · intro i i1 i2
            simp only [List.length_map] at i1 i2
            obtain ⟨x, y, z⟩ := hr.same i a.solver.data[i] a.solver.hier[i] (List.getElem?_eq_getElem i1) (List.getElem?_eq_getElem i2)
            simp [x, y, z]
        · intro dt
          rw [hadv, hadv, restart_static_level a.solver hr hs 1, restart_preLevel]
    obtain ⟨he, ha⟩ := hpre
    have hE : RunLoop.estOf (ctxSolver est advance) a = RunLoop.estOf (ctxSolver est advance) b := by
      unfold RunLoop.estOf
      rw [← h.failureDt]
      cases a.failureDt with
      | none => exact he
      | some e => rfl
    have hD : RunLoop.dtOf (ctxSolver est advance) o w a = RunLoop.dtOf (ctxSolver est advance) o w b := by
      unfold RunLoop.dtOf
      rw [hE, h.t]
    unfold RunLoop.body
    dsimp only
    rw [← hE, ← hD]
    have hA : (ctxSolver est advance).advance ((ctxSolver est advance).preAdvance a.solver) (RunLoop.dtOf (ctxSolver est advance) o w a)
        = (ctxSolver est advance).advance ((ctxSolver est advance).preAdvance b.solver) (RunLoop.dtOf (ctxSolver est advance) o w a) := ha _
    rw [← hA]
    generalize (ctxSolver est advance).advance ((ctxSolver est advance).preAdvance a.solver) (RunLoop.dtOf (ctxSolver est advance) o w a) = r
    have htr : ∀ x e dt err, ((Event.attempt a.solver x e dt err :: a.trace).map Event.seen)
        = (Event.attempt b.solver x e dt err :: b.trace).map Event.seen ++ tr := by
      intro x e dt err
      simp [Event.seen, h.trace]
    rw [← h.t]
    cases hr : r.2 with
    | some e =>
      dsimp only
      rw [← h.backup]
      split
      · cases hb : a.backup with
        | none => exact ⟨rfl, rfl, h.failureDt, rfl, htr _ _ _ _, h.solver⟩
        | some bk =>
          dsimp only
          apply endBody_inStep
          · exact ⟨h.pc, rfl, rfl, rfl, htr _ _ _ _, Or.inl rfl⟩
          · rfl
      · exact ⟨rfl, rfl, h.failureDt, by first | rfl | exact h.backup, htr _ _ _ _, Or.inl rfl⟩
    | none =>
      dsimp only
      split
      · apply endBody_inStep
        · refine ⟨h.pc, rfl, rfl, ?_, htr _ _ _ _, Or.inl rfl⟩
          dsimp only
          rw [h.backup]
        · rfl
      · exact ⟨rfl, rfl, h.failureDt, by first | rfl | exact h.backup, htr _ _ _ _, Or.inl rfl⟩

/-- The restarted run is the continued run for ever, as far as an observer can see: `cfg` is the state of the run when the checkpoint is put out, with a solver at rest; the step of the solver begins with
`PreAdvanceLevel` of the coarsest level and the estimate of the step size does not depend on the time of the last regrid. The grids must not be changed by regrids any more (`script = []`). -/
theorem restart_continues (est : Ctx K G Opt Meth Cb → K) (advance body : Ctx K G Opt Meth Cb → K → Ctx K G Opt Meth Cb × Option K)
    (hadv : ∀ c dt, advance c dt = body (c.preAdvanceLevel 0 (0, 1)) dt) (hest : ∀ c c', c.SameButRegrid c' → est c = est c')
    (o : RunOptions K) (w : Output K (Ctx K G Opt Meth Cb)) (cfg : Config K (Ctx K G Opt Meth Cb)) (hcfg : cfg = { RunLoop.init (ctxSolver est advance) o cfg.solver with trace := cfg.trace })
    (hr : cfg.solver.AtRest) (hs : cfg.solver.script = []) (n : ℕ) :
    ((RunLoop.step (ctxSolver est advance) o w)^[n] cfg).seen
      = (let r := RunLoop.run (ctxSolver est advance) o w (restartCtx cfg.solver cfg.solver.hier) n; { r with trace := r.trace ++ cfg.trace }).seen := by
  have key : ∀ n, InStep (cfg.trace.map Event.seen) ((RunLoop.step (ctxSolver est advance) o w)^[n] cfg)
      (RunLoop.run (ctxSolver est advance) o w (restartCtx cfg.solver cfg.solver.hier) n) := by
    intro n
    induction n with
    | zero =>
      have hpc : cfg.pc = .outer := by rw [hcfg]; rfl
      have ht : cfg.t = (ctxSolver est advance).gridTime cfg.solver := by
        conv_lhs => rw [hcfg]
        rfl
      have hf : cfg.failureDt = none := by rw [hcfg]; rfl
      have hb : cfg.backup = if o.doBackup then some ((ctxSolver est advance).copy cfg.solver) else none := by
        conv_lhs => rw [hcfg]
        rfl
      refine ⟨hpc, ht, hf, ?_, ?_, Or.inr ⟨hr, hs, rfl⟩⟩
      · show cfg.backup = _
        rw [hb]
        rfl
      · simp [RunLoop.run, RunLoop.init]
    | succ n ih =>
      rw [Function.iterate_succ_apply']
      unfold RunLoop.run
      rw [Function.iterate_succ_apply']
      exact step_inStep est advance body hadv hest o w _ _ _ ih
  have h := key n
  simp only [Config.seen, h.pc, h.t, h.failureDt, h.hier, h.trace, List.map_append]

end

/-- If the regrid at the time of the checkpoint does find something to change, the restarted run differs from the continued one: it makes its first step on the old grids, while the continued run first
remakes level 1 with the data `g`. Whatever the decisions of regrids are in the restarted run, it makes none. -/
theorem restart_skips_regrid_partial {K G Opt Meth Cb : Type} [DecidableEq K] (c : Ctx K G Opt Meth Cb) (hc : c.AtRest) (g : G) (rest rest' : List (List (RegridAct G))) (n : ℕ)
    (hscript : c.script = [.remake g] :: rest) (hmax : 1 < c.maxLevels) (h0 h1 : HierLevel K G) (hh : c.hier = [h0, h1]) (hg : g ≠ h1.data)
    (hreg : ∀ d : LevelClock K G, c.data[0]? = some d → d.regridTime ≠ d.time) :
    (c.preAdvanceHierarchy.preAdvanceLevel 0 (0, n)).hier = [h0, ⟨h0.time, 0, g⟩]
    ∧ ((restartCtx { c with script := rest' } c.hier).preAdvanceHierarchy.preAdvanceLevel 0 (0, n)).hier = [h0, h1]
    ∧ (⟨h0.time, 0, g⟩ : HierLevel K G) ≠ h1 := by
  have hl := hc.levels
  obtain ⟨d, hd⟩ : ∃ d, c.data[0]? = some d := ⟨c.data[0]'(by rw [hl, hh]; simp), List.getElem?_eq_getElem _⟩
  refine ⟨?_, ?_, fun h => hg (by rw [← h])⟩
  · have hp : c.preAdvanceHierarchy = c := by
      unfold Ctx.preAdvanceHierarchy
      rw [if_neg (by simp [hl])]
    rw [hp]
    unfold Ctx.preAdvanceLevel
    simp only [hd, if_true, ne_eq, hreg d hd, not_false_eq_true]
    have hr : c.regridAllFiner 0 = ({ c with hier := [h0, ⟨h0.time, 0, g⟩], script := rest }, 1) := by
      unfold Ctx.regridAllFiner
      rw [if_pos (by omega), hscript, hh]
      simp [applyRegrid, firstChanged]
    rw [hr]
    dsimp only
    rw [if_pos hmax]
    rfl
  · rw [restart_preAdvance { c with script := rest' } hl, restart_preLevel]
    exact hh

/-! ### Concrete cases -/

/-- A hierarchy of two levels at time 3/8. -/
def ckTwo : List (CkLevel ℚ ℕ (List ℚ) Unit) := [⟨3 / 8, 6, 10, [1, 2], none, none⟩, ⟨3 / 8, 12, 20, [3], none, none⟩]

/-- the hypotheses of the round trips and of `checkpoint_all_or_nothing` are met -/
example : ∃ fmt parse : ℚ → ℚ, (∀ x, Printed 17 x (fmt x)) ∧ (∀ q, NearestDouble q (parse q)) ∧ (∀ l ∈ ckTwo, IsDouble l.time) ∧ (∀ l ∈ ckTwo, l.nodes = none ∧ l.faces = none)
    ∧ ckRead parse (ckWrite fmt "Checkpoint" ckTwo) = some ckTwo := by
  obtain ⟨parse, hp⟩ := reader_exists
  have hd : ∀ l ∈ ckTwo, IsDouble l.time := by
    intro l hl
    have : l.time = 3 / 8 := by
      simp only [ckTwo, List.mem_cons, List.not_mem_nil, or_false] at hl
      rcases hl with rfl | rfl <;> rfl
    rw [this]
    exact ⟨3, -3, by norm_num, by norm_num, by norm_num, by norm_num⟩
  have hn : ∀ l ∈ ckTwo, l.nodes = none ∧ l.faces = none := by decide +kernel
  exact ⟨roundDigits 17, parse, roundDigits_printed 17, hp, hd, hn, checkpoint_round_trip _ _ (roundDigits_printed 17) hp _ _ hd hn⟩

/-- one tenth is not a number of the format, its neighbour is printed with 17 digits as 0.10000000000000001, and this is read as the neighbour -/
example : IsDouble (3602879701896397 / 2 ^ 55) ∧ Printed 17 (3602879701896397 / 2 ^ 55) (10000000000000001 / 10 ^ 17) := by
  constructor
  · exact ⟨3602879701896397, -55, by norm_num, by norm_num, by norm_num, by norm_num⟩
  · have hl : Int.log 10 |(3602879701896397 / 2 ^ 55 : ℚ)| = -1 := by
      rw [abs_of_pos (by norm_num)]
      apply le_antisymm
      · have := (Int.lt_zpow_iff_log_lt (R := ℚ) (b := 10) (by norm_num) (x := 0) (r := 3602879701896397 / 2 ^ 55) (by norm_num)).1 (by norm_num)
        omega
      · exact (Int.zpow_le_iff_le_log (R := ℚ) (b := 10) (by norm_num) (x := -1) (r := 3602879701896397 / 2 ^ 55) (by norm_num)).1 (by norm_num)
    unfold Printed
    rw [if_neg (by norm_num), hl]
    refine ⟨10000000000000001, by norm_num, ?_⟩
    rw [abs_le]
    constructor <;> norm_num

/-- a crash after the header and half of the file of level 1, before anything of level 0 was completed -/
example (fmt : ℚ → ℚ) : ∃ s, CkExec (ckOps fmt "Checkpoint" ckTwo) CkDir.clean s ∧ s.data 1 = some .torn ∧ s.data 0 = none ∧ s.header = some (ckHeader fmt "Checkpoint" ckTwo) := by
  refine ⟨_, .tornLevel _ 1 [3] _ _ (by simp [ckOps, ckTwo]) (.done _ (.header (ckHeader fmt "Checkpoint" ckTwo)) _ _ (by simp [ckOps]) (.nil _ _)), ?_, ?_, ?_⟩ <;> simp [CkOp.done, CkDir.clean]

/-- a mixture of blocks of different times: of two tubes at time 1/2 the first one is overwritten by a checkpoint at time 1 -/
example : ∃ (old new : List (List (CkLevel ℚ ℕ (List ℚ) Unit))), (∀ h ∈ old ++ new, ∀ l ∈ h, IsDouble l.time ∧ l.nodes = none ∧ l.faces = none)
    ∧ (new.take 1 ++ old.drop 1).map (fun h => h.map (·.time)) = [[1], [1 / 2]] := by
  refine ⟨[[⟨1 / 2, 1, 0, [], none, none⟩], [⟨1 / 2, 1, 0, [], none, none⟩]], [[⟨1, 2, 0, [], none, none⟩], [⟨1, 2, 0, [], none, none⟩]], ?_, by decide +kernel⟩
  intro h hh l hl
  have ht : (l.time = 1 / 2 ∨ l.time = 1) ∧ l.nodes = none ∧ l.faces = none := by
    simp only [List.cons_append, List.nil_append, List.mem_cons, List.not_mem_nil, or_false] at hh
    rcases hh with rfl | rfl | rfl | rfl <;> simp only [List.mem_cons, List.not_mem_nil, or_false] at hl <;> subst hl <;> simp
  refine ⟨?_, ht.2⟩
  rcases ht.1 with e | e <;> rw [e]
  · exact ⟨1, -1, by norm_num, by norm_num, by norm_num, by norm_num⟩
  · exact ⟨1, 0, by norm_num, by norm_num, by norm_num, by norm_num⟩

/-- a context with two levels after a step of size 1 -/
def ckCtx : Ctx ℚ ℕ Unit Unit Unit where
  options := ()
  hier := [⟨0, 0, 7⟩, ⟨0, 0, 9⟩]
  maxLevels := 2
  data := []
  method := ()
  feedback := none
  userStableDt := none
  countPerLevel := false
  script := []

/-- the state that a step of the subcycling solver leaves behind is at rest, and the next step would regrid -/
example : (advanceLevel (clockSys (fun _ => 2)) 2 0 1 (0, 1) ckCtx.preAdvanceHierarchy).1.postAdvanceHierarchy.AtRest
    ∧ (∀ d : LevelClock ℚ ℕ, (advanceLevel (clockSys (fun _ => 2)) 2 0 1 (0, 1) ckCtx.preAdvanceHierarchy).1.postAdvanceHierarchy.data[0]? = some d → d.regridTime ≠ d.time) := by
  have e : (advanceLevel (clockSys (fun _ => 2)) 2 0 1 (0, 1) ckCtx.preAdvanceHierarchy).1.postAdvanceHierarchy
      = { ckCtx with hier := [⟨1, 1, 7⟩, ⟨1, 2, 9⟩], data := [⟨1, 0, 1, 7⟩, ⟨1, 0, 2, 9⟩] } := by decide +kernel
  rw [e]
  refine ⟨⟨rfl, ?_, Or.inl ?_⟩, ?_⟩
  · intro l d h hd hh
    rcases l with _ | _ | l
    · simp only [List.getElem?_cons_zero, Option.some.injEq] at hd hh; subst hd hh; exact ⟨rfl, rfl, rfl⟩
    · simp only [List.getElem?_cons_succ, List.getElem?_cons_zero, Option.some.injEq] at hd hh; subst hd hh; exact ⟨rfl, rfl, rfl⟩
    · simp at hd
  · intro d hd
    simp only [List.getElem?_cons_zero, Option.some.injEq] at hd; subst hd; norm_num
  · intro d hd
    simp only [List.getElem?_cons_zero, Option.some.injEq] at hd; subst hd; norm_num

end Fub
