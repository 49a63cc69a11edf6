import Verif.Spec.Checkpoint
import Mathlib.Tactic.Ring
import Mathlib.Tactic.Linarith
import Mathlib.Tactic.NormNum
import Mathlib.Tactic.Positivity
import Mathlib.Tactic.FieldSimp

namespace Fub

/-! ### Doubles -/

theorem zpow_split (e f : ℤ) (h : e ≤ f) : (2 : ℚ) ^ f = ((2 ^ (f - e).toNat : ℤ) : ℚ) * 2 ^ e := by
  have : f = ((f - e).toNat : ℤ) + e := by omega
  conv_lhs => rw [this, zpow_add₀ (by norm_num)]
  push_cast
  rw [zpow_natCast]

theorem abs_sub_ge_of_ne (a b e : ℤ) (h : (a : ℚ) * 2 ^ e ≠ (b : ℚ) * 2 ^ e) : (2 : ℚ) ^ e ≤ |(a : ℚ) * 2 ^ e - (b : ℚ) * 2 ^ e| := by
  have hab : a ≠ b := fun hab => h (by rw [hab])
  have h1 : (1 : ℤ) ≤ |a - b| := Int.one_le_abs (sub_ne_zero.mpr hab)
  have hp : (0 : ℚ) < 2 ^ e := zpow_pos (by norm_num) e
  rw [← sub_mul, abs_mul, abs_of_pos hp]
  have h2 : (1 : ℚ) ≤ |(a : ℚ) - b| := by exact_mod_cast h1
  nlinarith

theorem double_dist_coarse (m e n f : ℤ) (hm : |m| < 2 ^ 53) (hef : e ≤ f) (hne : (m : ℚ) * 2 ^ e ≠ (n : ℚ) * 2 ^ f) :
    |(m : ℚ) * 2 ^ e| / 10 ^ 16 < |(m : ℚ) * 2 ^ e - (n : ℚ) * 2 ^ f| ∧ (2 : ℚ) ^ e ≤ |(m : ℚ) * 2 ^ e - (n : ℚ) * 2 ^ f| := by
  have hsp := zpow_split e f hef
  have e1 : (n : ℚ) * 2 ^ f = ((n * 2 ^ (f - e).toNat : ℤ) : ℚ) * 2 ^ e := by
    rw [hsp]; push_cast; ring
  rw [e1] at hne ⊢
  have hge := abs_sub_ge_of_ne m _ e hne
  refine ⟨lt_of_lt_of_le ?_ hge, hge⟩
  have hp : (0 : ℚ) < 2 ^ e := zpow_pos (by norm_num) e
  rw [abs_mul, abs_of_pos hp]
  have h2 : |(m : ℚ)| < 2 ^ 53 := by exact_mod_cast hm
  rw [div_lt_iff₀ (by norm_num)]
  nlinarith

/-- Two different numbers of the format binary64 differ by more than one part in `10^16`. -/
theorem double_dist {x y : ℚ} (hx : IsDouble x) (hy : IsDouble y) (hne : x ≠ y) : |x| / 10 ^ 16 < |x - y| := by
  obtain ⟨m, e, hm, -, -, rfl⟩ := hx
  obtain ⟨n, f, hn, -, -, rfl⟩ := hy
  rcases le_total e f with h | h
  · exact (double_dist_coarse m e n f hm h hne).1
  · have h2 := (double_dist_coarse n f m e hn h (Ne.symm hne)).2
    have hp : (0 : ℚ) < 2 ^ f := zpow_pos (by norm_num) f
    have hy' : |(n : ℚ) * 2 ^ f| < 2 ^ 53 * 2 ^ f := by
      rw [abs_mul, abs_of_pos hp]
      have h3 : |(n : ℚ)| < 2 ^ 53 := by exact_mod_cast hn
      nlinarith
    rw [abs_sub_comm] at h2
    have h4 : |(m : ℚ) * 2 ^ e| ≤ |(n : ℚ) * 2 ^ f| + |(m : ℚ) * 2 ^ e - (n : ℚ) * 2 ^ f| := by
      have := abs_add_le ((n : ℚ) * 2 ^ f) ((m : ℚ) * 2 ^ e - (n : ℚ) * 2 ^ f)
      simpa using this
    generalize |(m : ℚ) * 2 ^ e - (n : ℚ) * 2 ^ f| = w at *
    generalize |(m : ℚ) * 2 ^ e| = a at *
    generalize |(n : ℚ) * 2 ^ f| = b at *
    rw [div_lt_iff₀ (by norm_num)]
    nlinarith

theorem printed_close {n : ℕ} {x q : ℚ} (h : Printed n x q) : |x - q| ≤ |x| / 10 ^ ((n : ℤ) - 1) / 2 := by
  unfold Printed at h
  by_cases hx : x = 0
  · simp only [hx, if_true] at h
    subst h; subst hx; simp
  · simp only [hx, if_false] at h
    obtain ⟨m, -, h⟩ := h
    refine le_trans h ?_
    have hl := Int.zpow_log_le_self (b := 10) (r := |x|) (by norm_num) (abs_pos.mpr hx)
    have hl' : (10 : ℚ) ^ Int.log 10 |x| ≤ |x| := by exact_mod_cast hl
    have e1 : Int.log 10 |x| + 1 - n = Int.log 10 |x| - ((n : ℤ) - 1) := by ring
    rw [e1, zpow_sub₀ (by norm_num)]
    have hp : (0 : ℚ) < 10 ^ ((n : ℤ) - 1) := zpow_pos (by norm_num) _
    have := div_le_div_of_nonneg_right hl' hp.le
    linarith

/-! ### The header -/

section
variable {K B D N : Type} [DecidableEq K] [DecidableEq B]

theorem ckGetline_line (a rest : List (CkTok K B)) (ha : ∀ t ∈ a, t ≠ .nl) : ckGetline (a ++ .nl :: rest) = (a, rest) := by
  induction a with
  | nil => rfl
  | cons t a ih =>
    have ht : t ≠ .nl := ha t (by simp)
    have ih' := ih (fun t' h' => ha t' (by simp [h']))
    rw [List.cons_append]
    cases t <;> simp_all [ckGetline]

theorem ckInts_map (cs : List Int) (rest : List (CkTok K B)) : ckInts cs.length (cs.map (fun c => (CkTok.int c : CkTok K B)) ++ rest) = cs := by
  induction cs with
  | nil => rfl
  | cons c cs ih => simp [ckInts, ih]

theorem ckNums_map [Zero K] [IntCast K] (parse : K → K) (qs : List K) :
    ckNums parse qs.length (qs.map (fun q => (CkTok.num q : CkTok K B))) = qs.map parse := by
  induction qs with
  | nil => rfl
  | cons c cs ih => simp [ckNums, ih]

omit [DecidableEq K] [DecidableEq B] in
theorem ckBoxes_flat (bs : List B) (m : ℕ) (rest : List (CkTok K B)) :
    ckBoxes (bs.length + m) (bs.flatMap (fun b => [(CkTok.boxes b : CkTok K B), .nl]) ++ rest) = (ckBoxes m rest).map (bs ++ ·) := by
  induction bs with
  | nil => simp
  | cons b bs ih =>
    have e : (b :: bs).length + m = (bs.length + m) + 1 := by simp only [List.length_cons]; omega
    rw [e, List.flatMap_cons, List.append_assoc]
    simp only [List.cons_append, List.nil_append]
    rw [ckBoxes]
    have : ckBoxes (bs.length + m) (.nl :: (bs.flatMap (fun b => [(CkTok.boxes b : CkTok K B), .nl]) ++ rest))
        = ckBoxes (bs.length + m) (bs.flatMap (fun b => [(CkTok.boxes b : CkTok K B), .nl]) ++ rest) := by
      cases hn : bs.length + m with
      | zero => simp [ckBoxes]
      | succ k => rw [ckBoxes]
    rw [this, ih]
    cases ckBoxes m rest <;> simp

/-- The number of readable box arrays of a text. -/
def boxCount (ts : List (CkTok K B)) : ℕ := ts.countP (fun t => match t with | .boxes _ => true | _ => false)

omit [DecidableEq K] [DecidableEq B] in
theorem ckBoxes_count (n : ℕ) (ts : List (CkTok K B)) (bs : List B) (h : ckBoxes n ts = some bs) : n ≤ boxCount ts := by
  induction ts generalizing n bs with
  | nil => cases n with
    | zero => simp
    | succ n => simp [ckBoxes] at h
  | cons t ts ih =>
    cases n with
    | zero => simp
    | succ n =>
      cases t with
      | nl =>
        rw [ckBoxes] at h
        have := ih _ _ h
        simpa [boxCount, List.countP_cons] using this
      | boxes b =>
        rw [ckBoxes, Option.map_eq_some_iff] at h
        obtain ⟨bs', h', -⟩ := h
        have := ih _ _ h'
        simp only [boxCount, List.countP_cons] at this ⊢
        simp only [if_true]
        omega
      | word s => simp [ckBoxes] at h
      | int z => simp [ckBoxes] at h
      | num q => simp [ckBoxes] at h
      | torn => simp [ckBoxes] at h

theorem boxCount_getline (ts : List (CkTok K B)) : boxCount (ckGetline ts).2 ≤ boxCount ts := by
  induction ts with
  | nil => simp [ckGetline]
  | cons t ts ih =>
    have h : boxCount ts ≤ boxCount (t :: ts) := by simp [boxCount, List.countP_cons]
    cases t <;> simp only [ckGetline] <;> omega

omit [DecidableEq K] [DecidableEq B] in
theorem boxCount_append (a b : List (CkTok K B)) : boxCount (a ++ b) = boxCount a + boxCount b := by simp [boxCount]

omit [DecidableEq K] [DecidableEq B] in
theorem boxCount_take (a : List (CkTok K B)) (k : ℕ) : boxCount (a.take k) ≤ boxCount a :=
  (List.take_sublist k a).countP_le

variable [Zero K] [IntCast K]

omit [DecidableEq K] [DecidableEq B] [Zero K] [IntCast K] in
theorem ckHeader_eq (fmt : K → K) (title : String) (h : List (CkLevel K B D N)) :
    ckHeader fmt title h = .word title :: .nl :: .int ((h.length : Int) - 1) :: .nl ::
      (h.map (fun l => CkTok.int l.cycles) ++ .nl :: (h.map (fun l => CkTok.num (fmt l.time)) ++ .nl :: (h.map (·.boxes)).flatMap (fun b => [(CkTok.boxes b : CkTok K B), .nl]))) := by
  simp [ckHeader, List.flatMap_map]

theorem ckReadHeader_front (fmt parse : K → K) (title : String) (h : List (CkLevel K B D N)) (rest : List (CkTok K B)) :
    ckReadHeader parse (.word title :: .nl :: .int ((h.length : Int) - 1) :: .nl ::
      (h.map (fun l => CkTok.int l.cycles) ++ .nl :: (h.map (fun l => CkTok.num (fmt l.time)) ++ .nl :: rest)))
    = (ckBoxes h.length rest).map (fun bs => (h.map (fun l => parse (fmt l.time))).zip ((h.map (·.cycles)).zip bs)) := by
  have g1 : ∀ r : List (CkTok K B), ckGetline (.word title :: .nl :: r) = ([.word title], r) := fun r => by simp [ckGetline]
  have g2 : ∀ r : List (CkTok K B), ckGetline (.int ((h.length : Int) - 1) :: .nl :: r) = ([.int ((h.length : Int) - 1)], r) := fun r => by simp [ckGetline]
  unfold ckReadHeader
  simp only [g1, g2, ckStoi]
  rw [if_neg (by omega)]
  rw [ckGetline_line _ _ (by simp), ]
  simp only
  rw [ckGetline_line _ _ (by simp)]
  have hn : ((h.length : Int) - 1 + 1).toNat = h.length := by omega
  simp only [hn]
  have i1 : ckInts h.length (h.map (fun l => (CkTok.int l.cycles : CkTok K B))) = h.map (·.cycles) := by
    have := ckInts_map (K := K) (B := B) (h.map (·.cycles)) []
    simpa [Function.comp_def] using this
  have i2 : ckNums parse h.length (h.map (fun l => (CkTok.num (fmt l.time) : CkTok K B))) = h.map (fun l => parse (fmt l.time)) := by
    have := ckNums_map (B := B) parse (h.map (fun l => fmt l.time))
    simpa [Function.comp_def] using this
  rw [i1, i2]

omit [DecidableEq K] [DecidableEq B] [Zero K] [IntCast K] in
theorem map_zip3 (fmt parse : K → K) (h : List (CkLevel K B D N)) :
    (h.map (fun l => parse (fmt l.time))).zip ((h.map (·.cycles)).zip (h.map (·.boxes))) = h.map (fun l => (parse (fmt l.time), l.cycles, l.boxes)) := by
  simp only [List.zip_map']

/-- Reading the header that was written. -/
theorem ckReadHeader_write (fmt parse : K → K) (title : String) (h : List (CkLevel K B D N)) :
    ckReadHeader parse (ckHeader fmt title h) = some (h.map (fun l => (parse (fmt l.time), l.cycles, l.boxes))) := by
  rw [ckHeader_eq, ckReadHeader_front]
  have := ckBoxes_flat (K := K) (h.map (·.boxes)) 0 []
  simp only [List.append_nil, List.length_map, Nat.add_zero] at this
  rw [this]
  simp only [ckBoxes, Option.map_some, List.append_nil, Option.some.injEq]
  exact map_zip3 fmt parse h

theorem ckReadHeader_count (parse : K → K) (n : ℕ) (title : CkTok K B) (ht : title ≠ .nl) (ts : List (CkTok K B)) (hn : boxCount ts < n) : ckReadHeader parse (title :: .nl :: .int ((n : Int) - 1) :: ts) = none := by
  have g1 : ∀ r : List (CkTok K B), ckGetline (title :: .nl :: r) = ([title], r) := fun r => by
    cases title <;> simp_all [ckGetline]
  have g2 : ckGetline (.int ((n : Int) - 1) :: ts) = (.int ((n : Int) - 1) :: (ckGetline ts).1, (ckGetline ts).2) := by simp [ckGetline]
  unfold ckReadHeader
  simp only [g1, g2, ckStoi]
  rw [if_neg (by omega)]
  have hn' : ((n : Int) - 1 + 1).toNat = n := by omega
  rw [hn', Option.map_eq_none_iff]
  cases hb : ckBoxes n (ckGetline (ckGetline (ckGetline ts).2).2).2 with
  | none => rfl
  | some bs =>
    have h1 := ckBoxes_count _ _ _ hb
    have h2 := boxCount_getline (ckGetline (ckGetline ts).2).2
    have h3 := boxCount_getline (ckGetline ts).2
    have h4 := boxCount_getline ts
    omega

omit [DecidableEq K] [DecidableEq B] [Zero K] [IntCast K] in
theorem boxCount_flat (bs : List B) : boxCount (bs.flatMap (fun b => [(CkTok.boxes b : CkTok K B), .nl])) = bs.length := by
  induction bs with
  | nil => rfl
  | cons a t ih =>
    rw [List.flatMap_cons, boxCount_append, ih, List.length_cons]
    have : boxCount [(CkTok.boxes a : CkTok K B), .nl] = 1 := rfl
    omega

omit [DecidableEq K] [DecidableEq B] [Zero K] [IntCast K] in
theorem boxCount_ints (cs : List Int) : boxCount (cs.map (fun c => (CkTok.int c : CkTok K B))) = 0 := by
  simp [boxCount, List.countP_eq_zero]

omit [DecidableEq K] [DecidableEq B] [Zero K] [IntCast K] in
theorem boxCount_nums (qs : List K) : boxCount (qs.map (fun q => (CkTok.num q : CkTok K B))) = 0 := by
  simp [boxCount, List.countP_eq_zero]

/-- The text between the number of levels and the last box array. -/
def ckMiddle (fmt : K → K) (h : List (CkLevel K B D N)) (bs : List B) : List (CkTok K B) :=
  .nl :: (h.map (fun l => CkTok.int l.cycles) ++ .nl :: (h.map (fun l => CkTok.num (fmt l.time)) ++ .nl :: bs.flatMap (fun b => [(CkTok.boxes b : CkTok K B), .nl])))

omit [DecidableEq K] [DecidableEq B] [Zero K] [IntCast K] in
theorem boxCount_middle (fmt : K → K) (h : List (CkLevel K B D N)) (bs : List B) : boxCount (ckMiddle fmt h bs) = bs.length := by
  have e1 := boxCount_ints (K := K) (B := B) (h.map (·.cycles))
  have e2 := boxCount_nums (K := K) (B := B) (h.map (fun l => fmt l.time))
  have e3 := boxCount_flat (K := K) bs
  rw [List.map_map] at e1 e2
  have c : ∀ ts : List (CkTok K B), boxCount (.nl :: ts) = boxCount ts := fun ts => by simp [boxCount, List.countP_cons]
  simp only [Function.comp_def] at e1 e2
  unfold ckMiddle
  rw [c, boxCount_append, c, boxCount_append, c, e1, e2, e3]
  omega

theorem ckReadHeader_short (parse : K → K) (u : List (CkTok K B)) (t : CkTok K B) (ht : t ≠ .nl) (x : List (CkTok K B))
    (hu : u = [] ∨ u = [t] ∨ (∃ t', t' ≠ .nl ∧ u = [t, t']) ∨ u = [t, .nl] ∨ u = [t, .nl, .torn] ∨ ∃ z : Int, 0 ≤ z ∧ u = [t, .nl, .int z]) :
    ckReadHeader parse u = none := by
  rcases hu with rfl | rfl | ⟨t', ht', rfl⟩ | rfl | rfl | ⟨z, hz, rfl⟩
  · simp [ckReadHeader, ckGetline, ckStoi]
  · cases t <;> simp_all [ckReadHeader, ckGetline, ckStoi]
  · cases t <;> cases t' <;> simp_all [ckReadHeader, ckGetline, ckStoi]
  · cases t <;> simp_all [ckReadHeader, ckGetline, ckStoi]
  · cases t <;> simp_all [ckReadHeader, ckGetline, ckStoi]
  · have e : (z + 1).toNat = z.toNat + 1 := by omega
    cases t <;> simp_all [ckReadHeader, ckGetline, ckStoi, ckBoxes]

/-- What is left of a header after an interruption either cannot be read, or says the same as the whole header. -/
theorem torn_header (fmt parse : K → K) (title : String) (h : List (CkLevel K B D N)) (hne : h ≠ []) (u : List (CkTok K B))
    (hu : TornText (ckHeader fmt title h) u) :
    ckReadHeader parse u = none ∨ ckReadHeader parse u = some (h.map (fun l => (parse (fmt l.time), l.cycles, l.boxes))) := by
  obtain ⟨hi, l, rfl⟩ : ∃ hi l, h = hi ++ [l] := ⟨h.dropLast, h.getLast hne, (List.dropLast_append_getLast hne).symm⟩
  have hts : ckHeader fmt title (hi ++ [l]) = .word title :: .nl :: .int (((hi ++ [l]).length : Int) - 1) ::
      (ckMiddle fmt (hi ++ [l]) (hi.map (·.boxes)) ++ [.boxes l.boxes, .nl]) := by
    rw [ckHeader_eq]; simp [ckMiddle]
  obtain ⟨k, hk, hu⟩ := hu
  rw [hts] at hk hu
  have hcount := boxCount_middle fmt (hi ++ [l]) (hi.map (·.boxes))
  rw [List.length_map] at hcount
  have hlen : (hi ++ [l]).length = hi.length + 1 := by simp
  match k, hk, hu with
  | 0, _, hu =>
    left
    rcases hu with rfl | ⟨t, rfl, ht⟩
    · exact ckReadHeader_short parse _ .torn (by simp) [] (Or.inl rfl)
    · refine ckReadHeader_short parse _ t ?_ [] (Or.inr (Or.inl (by simp)))
      simp only [List.getElem?_cons_zero] at ht
      rcases ht with rfl | ⟨s, rfl⟩ <;> simp
  | 1, _, hu =>
    left
    rcases hu with rfl | ⟨t, rfl, ht⟩
    · exact ckReadHeader_short parse _ (.word title) (by simp) [] (Or.inr (Or.inl (by simp)))
    · simp only [List.getElem?_cons_succ, List.getElem?_cons_zero] at ht
      subst ht
      exact ckReadHeader_short parse _ (.word title) (by simp) [] (Or.inr (Or.inr (Or.inl ⟨.torn, by simp, by simp⟩)))
  | 2, _, hu =>
    left
    rcases hu with rfl | ⟨t, rfl, ht⟩
    · exact ckReadHeader_short parse _ (.word title) (by simp) [] (Or.inr (Or.inr (Or.inr (Or.inl (by simp)))))
    · simp only [List.getElem?_cons_succ, List.getElem?_cons_zero] at ht
      rcases ht with rfl | ⟨z, rfl, hz⟩
      · exact ckReadHeader_short parse _ (.word title) (by simp) [] (Or.inr (Or.inr (Or.inr (Or.inr (Or.inl (by simp))))))
      · exact ckReadHeader_short parse _ (.word title) (by simp) []
          (Or.inr (Or.inr (Or.inr (Or.inr (Or.inr ⟨z, hz (by omega), by simp⟩)))))
  | k + 3, hk, hu =>
    simp only [List.take_succ_cons, List.getElem?_cons_succ, List.length_cons, List.cons_append] at hk hu
    generalize hS : ckMiddle fmt (hi ++ [l]) (hi.map (·.boxes)) = S at hk hu hcount
    obtain ⟨x, hux, hx⟩ : ∃ x, u = .word title :: .nl :: .int (((hi ++ [l]).length : Int) - 1) :: ((S ++ [CkTok.boxes l.boxes, CkTok.nl]).take k ++ x) ∧
        boxCount x = 0 := by
      rcases hu with rfl | ⟨t, rfl, ht⟩
      · exact ⟨[], by simp, rfl⟩
      · refine ⟨[t], rfl, ?_⟩
        revert ht
        cases (S ++ [CkTok.boxes l.boxes, CkTok.nl])[k]? with
        | none => rintro rfl; rfl
        | some tk =>
          cases tk <;> dsimp only
          · rintro (rfl | ⟨s, rfl⟩) <;> rfl
          · rintro (rfl | ⟨s, rfl, -⟩) <;> rfl
          · rintro (rfl | ⟨s, rfl⟩ | ⟨s, rfl⟩) <;> rfl
          · rintro rfl; rfl
          · rintro rfl; rfl
          · rintro rfl; rfl
    subst hux
    by_cases hkS : k ≤ S.length
    · left
      apply ckReadHeader_count parse _ _ (by simp)
      rw [boxCount_append, hx, List.take_append_of_le_length hkS]
      have := boxCount_take S k
      omega
    · right
      have hk' : k = S.length + 1 := by
        simp only [List.length_append, List.length_cons, List.length_nil] at hk
        omega
      have htake : (S ++ [CkTok.boxes l.boxes, CkTok.nl]).take k = S ++ [.boxes l.boxes] := by
        rw [hk', List.take_append]
        simp
      rw [htake, ← hS]
      have e : (CkTok.word title : CkTok K B) :: .nl :: .int (((hi ++ [l]).length : Int) - 1) :: (ckMiddle fmt (hi ++ [l]) (hi.map (·.boxes)) ++ [.boxes l.boxes] ++ x)
          = .word title :: .nl :: .int (((hi ++ [l]).length : Int) - 1) :: .nl ::
      ((hi ++ [l]).map (fun l => CkTok.int l.cycles) ++ .nl :: ((hi ++ [l]).map (fun l => CkTok.num (fmt l.time)) ++ .nl ::
        ((hi.map (·.boxes)).flatMap (fun b => [(CkTok.boxes b : CkTok K B), .nl]) ++ (.boxes l.boxes :: x)))) := by
        simp [ckMiddle]
      rw [e, ckReadHeader_front]
      have hb := ckBoxes_flat (K := K) (hi.map (·.boxes)) 1 (.boxes l.boxes :: x)
      rw [List.length_map] at hb
      rw [hlen, hb]
      have h1 : ckBoxes 1 (CkTok.boxes l.boxes :: x) = some [l.boxes] := by
        rw [ckBoxes]; simp [ckBoxes]
      rw [h1]
      simp only [Option.map_some, Option.some.injEq]
      rw [← map_zip3 fmt parse (hi ++ [l])]
      simp

end

end Fub
