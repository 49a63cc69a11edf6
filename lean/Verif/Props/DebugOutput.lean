import Verif.Model.DebugOutput
import Verif.Spec.DebugOutput
import Std.Data.String.ToNat
import Mathlib.Data.List.Forall2
import Mathlib.Data.List.Perm.Basic
import Mathlib.Data.List.Nodup
import Mathlib.Tactic.Ring
import Mathlib.Tactic.FieldSimp
import Mathlib.Algebra.Order.Ring.Rat

/-!
# Theorems about the debug output

C152, C153.
-/

namespace Fub

/-! ### Numbers at names -/

theorem dbgNumber_inj {sep : Char} (hs : sep.isDigit = false) {a b : DbgName} {m n : Nat} (h : a.number sep m = b.number sep n) : a = b ∧ m = n := by
  unfold DbgName.number at h
  have hd : ∀ k : Nat, sep ∉ Nat.toDigits 10 k := by
    intro k hk
    have := Nat.isDigit_of_mem_toDigits (b := 10) (by norm_num) (by norm_num) hk
    rw [hs] at this
    exact absurd this (by decide)
  have key : ∀ (a b s t : List Char), sep ∉ s → sep ∉ t → a ++ sep :: s = b ++ sep :: t → a = b ∧ s = t := by
    intro a
    induction a with
    | nil =>
      intro b s t hs' ht' e
      cases b with
      | nil => simp only [List.nil_append, List.cons.injEq, true_and] at e; exact ⟨rfl, e⟩
      | cons y ys =>
        simp only [List.nil_append, List.cons_append, List.cons.injEq] at e
        exact absurd (by rw [e.2]; simp) hs'
    | cons x xs ih =>
      intro b s t hs' ht' e
      cases b with
      | nil =>
        simp only [List.nil_append, List.cons_append, List.cons.injEq] at e
        exact absurd (by rw [← e.2]; simp) ht'
      | cons y ys =>
        simp only [List.cons_append, List.cons.injEq] at e
        obtain ⟨h1, h2⟩ := ih ys s t hs' ht' e.2
        exact ⟨by rw [e.1, h1], h2⟩
  obtain ⟨h1, h2⟩ := key a b _ _ (hd m) (hd n) h
  refine ⟨h1, ?_⟩
  have : Nat.repr m = Nat.repr n := by
    apply String.toList_injective
    rw [Nat.toList_repr, Nat.toList_repr, h2]
  exact Nat.repr_injective this

theorem dbgNumber_ne (sep : Char) (a : DbgName) (n : Nat) : a.number sep n ≠ a := by
  intro h
  have := congrArg List.length h
  unfold DbgName.number at this
  simp at this

/-! ### Unique names -/

/-- The numbering of all names in one list. -/
def dbgUniqueFlat : Nat → List DbgName → List DbgName
  | 0, as => as
  | _ + 1, [] => []
  | n + 1, a :: as => (if a ∈ as then a.number '_' 0 else a) :: dbgUniqueFlat n (dbgRename a 0 as).1

theorem dbgRenameFrom_length (a : DbgName) : ∀ (as : List DbgName) (c : Nat), (dbgRenameFrom a c as).1.length = as.length := by
  intro as
  induction as with
  | nil => intro c; rfl
  | cons x xs ih =>
    intro c
    unfold dbgRenameFrom
    by_cases hx : x = a
    · simp only [hx, if_true, List.length_cons, ih]
    · simp only [hx, if_false, List.length_cons, ih]

theorem dbgRename_length (a : DbgName) (as : List DbgName) (c : Nat) : (dbgRename a c as).1.length = as.length := by
  unfold dbgRename
  by_cases h : a ∈ as
  · simp only [h, if_true, dbgRenameFrom_length]
  · simp only [h, if_false]

theorem dbgRenameFrom_cons (a x : DbgName) (xs : List DbgName) (c : Nat) : dbgRenameFrom a c (x :: xs) =
    if x = a then (a.number '_' c :: (dbgRenameFrom a (c + 1) xs).1, (dbgRenameFrom a (c + 1) xs).2) else (x :: (dbgRenameFrom a c xs).1, (dbgRenameFrom a c xs).2) := rfl

theorem dbgRenameFrom_append (a : DbgName) : ∀ (as bs : List DbgName) (c : Nat),
    dbgRenameFrom a c (as ++ bs) = ((dbgRenameFrom a c as).1 ++ (dbgRenameFrom a (dbgRenameFrom a c as).2 bs).1, (dbgRenameFrom a (dbgRenameFrom a c as).2 bs).2) := by
  intro as
  induction as with
  | nil => intro bs c; rfl
  | cons x xs ih =>
    intro bs c
    rw [List.cons_append, dbgRenameFrom_cons, dbgRenameFrom_cons]
    by_cases hx : x = a
    · simp only [hx, if_true, ih bs (c + 1), List.cons_append]
    · simp only [hx, if_false, ih bs c, List.cons_append]

theorem dbgRenameFrom_not_mem (a : DbgName) : ∀ (as : List DbgName) (c : Nat), a ∉ as → dbgRenameFrom a c as = (as, c) := by
  intro as
  induction as with
  | nil => intro c _; rfl
  | cons x xs ih =>
    intro c h
    have hx : x ≠ a := fun e => h (by rw [e]; simp)
    have hxs : a ∉ xs := fun e => h (List.mem_cons_of_mem _ e)
    unfold dbgRenameFrom
    simp only [hx, if_false, ih c hxs]

theorem dbgRenameFrom_ge (a : DbgName) : ∀ (as : List DbgName) (c : Nat), c ≤ (dbgRenameFrom a c as).2 := by
  intro as
  induction as with
  | nil => intro c; exact le_refl c
  | cons x xs ih =>
    intro c
    unfold dbgRenameFrom
    by_cases hx : x = a
    · simp only [hx, if_true]; exact le_trans (Nat.le_succ c) (ih (c + 1))
    · simp only [hx, if_false]; exact ih c

theorem dbgRename_append (a : DbgName) (as bs : List DbgName) (c : Nat) :
    dbgRename a c (as ++ bs) = ((dbgRename a c as).1 ++ (dbgRename a (dbgRename a c as).2 bs).1, (dbgRename a (dbgRename a c as).2 bs).2) := by
  unfold dbgRename
  by_cases h1 : a ∈ as
  · have h : a ∈ as ++ bs := List.mem_append_left _ h1
    have hge := dbgRenameFrom_ge a as (if c = 0 then 1 else c)
    have h0 : ¬ (dbgRenameFrom a (if c = 0 then 1 else c) as).2 = 0 := by
      by_cases hc : c = 0
      · simp only [hc, if_true] at hge ⊢; omega
      · simp only [hc, if_false] at hge ⊢; omega
    simp only [h, h1, if_true, h0, if_false]
    rw [dbgRenameFrom_append]
    by_cases h2 : a ∈ bs
    · simp only [h2, if_true]
    · simp only [h2, if_false, dbgRenameFrom_not_mem a bs _ h2]
  · by_cases h2 : a ∈ bs
    · have h : a ∈ as ++ bs := List.mem_append_right _ h2
      simp only [h, h1, h2, if_true, if_false]
      rw [dbgRenameFrom_append, dbgRenameFrom_not_mem a as _ h1]
    · have h : a ∉ as ++ bs := by rw [List.mem_append]; tauto
      simp only [h, h1, h2, if_false]

theorem dbgRenameLater_flatten (a : DbgName) : ∀ (hs : List (List DbgName)) (c : Nat),
    ((dbgRenameLater a c hs).1.flatten, (dbgRenameLater a c hs).2) = dbgRename a c hs.flatten := by
  intro hs
  induction hs with
  | nil => intro c; simp [dbgRenameLater, dbgRename]
  | cons h hs ih =>
    intro c
    rw [List.flatten_cons, dbgRename_append, ← ih]
    rfl

theorem dbgRenameLater_length (a : DbgName) : ∀ (hs : List (List DbgName)) (c : Nat), (dbgRenameLater a c hs).1.map List.length = hs.map List.length := by
  intro hs
  induction hs with
  | nil => intro c; rfl
  | cons h hs ih =>
    intro c
    unfold dbgRenameLater
    simp only [List.map_cons, ih, dbgRename_length]

theorem dbgRename_zero (a : DbgName) (as : List DbgName) : (dbgRename a 0 as).2 = 0 ↔ a ∉ as := by
  unfold dbgRename
  by_cases h : a ∈ as
  · have := dbgRenameFrom_ge a as 1
    simp only [h, if_true, not_true, iff_false]
    omega
  · simp only [h, if_false, not_false_iff]

theorem dbgUniqueHier_flat : ∀ (n : Nat) (as : List DbgName) (later : List (List DbgName)), n = as.length →
    (dbgUniqueHier n as later).1.length = n ∧ (dbgUniqueHier n as later).2.map List.length = later.map List.length ∧
    ∀ k : Nat, dbgUniqueFlat (n + k) (as ++ later.flatten) = (dbgUniqueHier n as later).1 ++ dbgUniqueFlat k (dbgUniqueHier n as later).2.flatten := by
  intro n
  induction n with
  | zero =>
    intro as later h
    have : as = [] := List.length_eq_zero_iff.mp h.symm
    subst this
    refine ⟨rfl, rfl, ?_⟩
    intro k
    rw [Nat.zero_add]
    rfl
  | succ n ih =>
    intro as later h
    cases as with
    | nil => simp at h
    | cons a rest =>
      have hr : n = (dbgRename a 0 rest).1.length := by rw [dbgRename_length]; simpa using h
      obtain ⟨i1, i2, i3⟩ := ih (dbgRename a 0 rest).1 (dbgRenameLater a (dbgRename a 0 rest).2 later).1 hr
      have hfl := dbgRenameLater_flatten a later (dbgRename a 0 rest).2
      have happ := dbgRename_append a rest later.flatten 0
      rw [← hfl] at happ
      dsimp only at happ
      unfold dbgUniqueHier
      dsimp only
      refine ⟨by rw [List.length_cons, i1], by rw [i2, dbgRenameLater_length], ?_⟩
      intro k
      have e : n + 1 + k = (n + k) + 1 := by omega
      rw [e, List.cons_append]
      show (if a ∈ rest ++ later.flatten then a.number '_' 0 else a) :: dbgUniqueFlat (n + k) (dbgRename a 0 (rest ++ later.flatten)).1 = _
      have hz := dbgRename_zero a (rest ++ later.flatten)
      rw [happ] at hz ⊢
      dsimp only at hz ⊢
      rw [i3 k, List.cons_append]
      congr 1
      by_cases hm : a ∈ rest ++ later.flatten
      · have : ¬ (dbgRenameLater a (dbgRename a 0 rest).2 later).2 = 0 := fun e => (hz.mp e) hm
        simp only [hm, if_true, this, if_false]
      · have := hz.mpr hm
        simp only [hm, if_false, this, if_true]

theorem dbgUniqueLoop_flat : ∀ (m : Nat) (hs : List (List DbgName)), m = hs.length →
    (dbgUniqueLoop m hs).map List.length = hs.map List.length ∧ (dbgUniqueLoop m hs).flatten = dbgUniqueFlat hs.flatten.length hs.flatten := by
  intro m
  induction m with
  | zero =>
    intro hs h
    have : hs = [] := List.length_eq_zero_iff.mp h.symm
    subst this
    exact ⟨rfl, rfl⟩
  | succ m ih =>
    intro hs h
    cases hs with
    | nil => simp at h
    | cons x hs =>
      obtain ⟨i1, i2, i3⟩ := dbgUniqueHier_flat x.length x hs rfl
      have hl : m = (dbgUniqueHier x.length x hs).2.length := by
        have := congrArg List.length i2
        simp only [List.length_map] at this
        rw [this]
        simpa using h
      obtain ⟨j1, j2⟩ := ih _ hl
      show (((dbgUniqueHier x.length x hs).1 :: dbgUniqueLoop m (dbgUniqueHier x.length x hs).2).map List.length = _) ∧
        ((dbgUniqueHier x.length x hs).1 :: dbgUniqueLoop m (dbgUniqueHier x.length x hs).2).flatten = _
      constructor
      · rw [List.map_cons, List.map_cons, i1, j1, i2]
      · rw [List.flatten_cons, List.flatten_cons, List.length_append, i3, j2]
        have : (dbgUniqueHier x.length x hs).2.flatten.length = hs.flatten.length := by
          rw [List.length_flatten, List.length_flatten, i2]
        rw [this]

theorem dbgRenameFrom_mem (a : DbgName) : ∀ (as : List DbgName) (c : Nat) (x : DbgName), x ∈ (dbgRenameFrom a c as).1 →
    (x ∈ as ∧ x ≠ a) ∨ ∃ n : Nat, c ≤ n ∧ x = a.number '_' n := by
  intro as
  induction as with
  | nil => intro c x h; simp [dbgRenameFrom] at h
  | cons y ys ih =>
    intro c x h
    unfold dbgRenameFrom at h
    by_cases hy : y = a
    · simp only [hy, if_true, List.mem_cons] at h
      rcases h with h | h
      · exact Or.inr ⟨c, le_refl c, h⟩
      · rcases ih (c + 1) x h with ⟨h1, h2⟩ | ⟨n, h1, h2⟩
        · exact Or.inl ⟨List.mem_cons_of_mem _ h1, h2⟩
        · exact Or.inr ⟨n, by omega, h2⟩
    · simp only [hy, if_false, List.mem_cons] at h
      rcases h with h | h
      · exact Or.inl ⟨by rw [h]; simp, by rw [h]; exact hy⟩
      · rcases ih c x h with ⟨h1, h2⟩ | ⟨n, h1, h2⟩
        · exact Or.inl ⟨List.mem_cons_of_mem _ h1, h2⟩
        · exact Or.inr ⟨n, h1, h2⟩

theorem dbgRenameFrom_count (a : DbgName) : ∀ (as : List DbgName) (c : Nat) (x : DbgName), (∀ n : Nat, x ≠ a.number '_' n) → x ≠ a →
    (dbgRenameFrom a c as).1.count x = as.count x := by
  intro as
  induction as with
  | nil => intro c x _ _; rfl
  | cons y ys ih =>
    intro c x h1 h2
    unfold dbgRenameFrom
    by_cases hy : y = a
    · simp only [hy, if_true]
      rw [List.count_cons_of_ne (fun e => h1 c e.symm), List.count_cons_of_ne (fun e => h2 e.symm), ih _ x h1 h2]
    · simp only [hy, if_false, List.count_cons, ih _ x h1 h2]

theorem dbgRenameFrom_count_number (a : DbgName) : ∀ (as : List DbgName) (c n : Nat), (∀ k : Nat, a.number '_' k ∉ as) →
    (dbgRenameFrom a c as).1.count (a.number '_' n) ≤ if c ≤ n then 1 else 0 := by
  intro as
  induction as with
  | nil => intro c n _; simp [dbgRenameFrom]
  | cons y ys ih =>
    intro c n h
    have hys : ∀ k : Nat, a.number '_' k ∉ ys := fun k e => h k (List.mem_cons_of_mem _ e)
    have hyn : y ≠ a.number '_' n := fun e => h n (by rw [← e]; simp)
    unfold dbgRenameFrom
    by_cases hy : y = a
    · simp only [hy, if_true]
      have := ih (c + 1) n hys
      by_cases hn : c = n
      · subst hn
        rw [List.count_cons_self]
        simp only [show ¬ c + 1 ≤ c by omega, if_false] at this
        simp only [le_refl, if_true]
        omega
      · rw [List.count_cons_of_ne (fun e => hn (dbgNumber_inj (by decide) e).2)]
        by_cases hcn : c ≤ n
        · simp only [show c + 1 ≤ n by omega, if_true] at this
          simpa only [hcn, if_true] using this
        · simp only [show ¬ c + 1 ≤ n by omega, if_false] at this
          simpa only [hcn, if_false] using this
    · simp only [hy, if_false]
      rw [List.count_cons_of_ne hyn]
      exact ih c n hys

theorem dbgRenameFrom_forall (a : DbgName) : ∀ (as : List DbgName) (c : Nat),
    List.Forall₂ (fun x y => (x ≠ a → y = x) ∧ (x = a → ∃ n : Nat, y = a.number '_' n)) as (dbgRenameFrom a c as).1 := by
  intro as
  induction as with
  | nil => intro c; exact List.Forall₂.nil
  | cons y ys ih =>
    intro c
    unfold dbgRenameFrom
    by_cases hy : y = a
    · simp only [hy, if_true]
      exact List.Forall₂.cons ⟨fun h => absurd rfl h, fun _ => ⟨c, rfl⟩⟩ (ih (c + 1))
    · simp only [hy, if_false]
      exact List.Forall₂.cons ⟨fun _ => rfl, fun h => absurd h hy⟩ (ih c)

/-- Renaming the occurrences of a name keeps the assumption, and the names that occur twice are among the old ones. -/
theorem dbgRename_free {a : DbgName} {as : List DbgName} (h : NamesFree (a :: as)) :
    NamesFree (dbgRename a 0 as).1 ∧ a ∉ (dbgRename a 0 as).1 ∧ (∀ n : Nat, a ∈ as → a.number '_' n ∉ as) ∧
    (∀ b : DbgName, 2 ≤ (dbgRename a 0 as).1.count b → b ≠ a ∧ (dbgRename a 0 as).1.count b = as.count b) := by
  by_cases ha : a ∈ as
  · have hnum : ∀ n : Nat, a.number '_' n ∉ as := by
      intro n hn
      refine h a (by simp) ?_ n (List.mem_cons_of_mem _ hn)
      rw [List.count_cons_self]
      have := List.count_pos_iff.mpr ha
      omega
    have hna : a ∉ (dbgRename a 0 as).1 := by
      unfold dbgRename
      simp only [ha, if_true]
      intro hm
      rcases dbgRenameFrom_mem a as _ a hm with ⟨_, h2⟩ | ⟨n, _, h2⟩
      · exact h2 rfl
      · exact dbgNumber_ne '_' a n h2.symm
    have hdup : ∀ b : DbgName, 2 ≤ (dbgRename a 0 as).1.count b → b ≠ a ∧ (dbgRename a 0 as).1.count b = as.count b := by
      intro b hb
      have hba : b ≠ a := by
        intro e
        rw [e, List.count_eq_zero_of_not_mem hna] at hb
        omega
      refine ⟨hba, ?_⟩
      unfold dbgRename at hb ⊢
      simp only [ha, if_true] at hb ⊢
      apply dbgRenameFrom_count a as _ b _ hba
      intro n e
      have := dbgRenameFrom_count_number a as 1 n hnum
      rw [e] at hb
      split at this <;> omega
    refine ⟨?_, hna, fun n _ => hnum n, hdup⟩
    intro b hb hb2 n hm
    obtain ⟨hba, hc⟩ := hdup b hb2
    have hbas : 2 ≤ as.count b := by rw [← hc]; exact hb2
    have hm' : b.number '_' n ∈ (dbgRename a 0 as).1 := hm
    unfold dbgRename at hm'
    simp only [ha, if_true] at hm'
    rcases dbgRenameFrom_mem a as _ _ hm' with ⟨h1, _⟩ | ⟨k, _, h2⟩
    · refine h b (List.mem_cons_of_mem _ (List.count_pos_iff.mp (by omega))) ?_ n (List.mem_cons_of_mem _ h1)
      rw [List.count_cons_of_ne (fun e => hba e.symm)]
      exact hbas
    · exact hba (dbgNumber_inj (by decide) h2).1
  · have e : (dbgRename a 0 as).1 = as := by unfold dbgRename; simp only [ha, if_false]
    rw [e]
    refine ⟨?_, ha, fun _ h' => absurd h' ha, ?_⟩
    · intro b hb hb2 n hm
      refine h b (List.mem_cons_of_mem _ hb) ?_ n (List.mem_cons_of_mem _ hm)
      rw [List.count_cons]
      omega
    · intro b hb2
      refine ⟨fun e' => ?_, rfl⟩
      rw [e', List.count_eq_zero_of_not_mem ha] at hb2
      omega

theorem dbgUniqueFlat_mem : ∀ (n : Nat) (as : List DbgName), n = as.length → NamesFree as → ∀ x ∈ dbgUniqueFlat n as,
    x ∈ as ∨ ∃ (b : DbgName) (k : Nat), 2 ≤ as.count b ∧ x = b.number '_' k := by
  intro n
  induction n with
  | zero => intro as _ _ x hx; exact Or.inl hx
  | succ n ih =>
    intro as hl hf x hx
    cases as with
    | nil => simp at hl
    | cons a rest =>
      obtain ⟨f1, f2, f3, f4⟩ := dbgRename_free hf
      have hcount : a ∈ rest → 2 ≤ (a :: rest).count a := by
        intro ha
        rw [List.count_cons_self]
        have := List.count_pos_iff.mpr ha
        omega
      have hx' : x = (if a ∈ rest then a.number '_' 0 else a) ∨ x ∈ dbgUniqueFlat n (dbgRename a 0 rest).1 := List.mem_cons.mp hx
      rcases hx' with hx' | hx'
      · by_cases ha : a ∈ rest
        · simp only [ha, if_true] at hx'
          exact Or.inr ⟨a, 0, hcount ha, hx'⟩
        · simp only [ha, if_false] at hx'
          exact Or.inl (by rw [hx']; simp)
      · rcases ih _ (by rw [dbgRename_length]; simpa using hl) f1 x hx' with h | ⟨b, k, h1, h2⟩
        · by_cases ha : a ∈ rest
          · unfold dbgRename at h
            simp only [ha, if_true] at h
            rcases dbgRenameFrom_mem a rest _ x h with ⟨h1, _⟩ | ⟨k, _, h2⟩
            · exact Or.inl (List.mem_cons_of_mem _ h1)
            · exact Or.inr ⟨a, k, hcount ha, h2⟩
          · unfold dbgRename at h
            simp only [ha, if_false] at h
            exact Or.inl (List.mem_cons_of_mem _ h)
        · obtain ⟨_, hc⟩ := f4 b h1
          refine Or.inr ⟨b, k, ?_, h2⟩
          rw [List.count_cons]
          omega

theorem dbgUniqueFlat_nodup : ∀ (n : Nat) (as : List DbgName), n = as.length → NamesFree as → (dbgUniqueFlat n as).Nodup := by
  intro n
  induction n with
  | zero =>
    intro as hl _
    have : as = [] := List.length_eq_zero_iff.mp hl.symm
    subst this
    exact List.nodup_nil
  | succ n ih =>
    intro as hl hf
    cases as with
    | nil => simp at hl
    | cons a rest =>
      obtain ⟨f1, f2, f3, f4⟩ := dbgRename_free hf
      have hl' : n = (dbgRename a 0 rest).1.length := by rw [dbgRename_length]; simpa using hl
      show ((if a ∈ rest then a.number '_' 0 else a) :: dbgUniqueFlat n (dbgRename a 0 rest).1).Nodup
      rw [List.nodup_cons]
      refine ⟨?_, ih _ hl' f1⟩
      intro hm
      rcases dbgUniqueFlat_mem n _ hl' f1 _ hm with h | ⟨b, k, h1, h2⟩
      · by_cases ha : a ∈ rest
        · simp only [ha, if_true] at h
          unfold dbgRename at h
          simp only [ha, if_true] at h
          rcases dbgRenameFrom_mem a rest _ _ h with ⟨h1, _⟩ | ⟨k, h1, h2⟩
          · exact f3 0 ha h1
          · have := (dbgNumber_inj (by decide) h2).2
            omega
        · simp only [ha, if_false] at h
          exact f2 h
      · obtain ⟨hba, hc⟩ := f4 b h1
        by_cases ha : a ∈ rest
        · simp only [ha, if_true] at h2
          exact hba (dbgNumber_inj (by decide) h2).1.symm
        · simp only [ha, if_false] at h2
          refine hf b (List.mem_cons_of_mem _ (List.count_pos_iff.mp (by omega))) ?_ k ?_
          · rw [List.count_cons]; omega
          · show b.number '_' k ∈ a :: rest
            rw [← h2]; simp

theorem dbgUniqueFlat_forall : ∀ (n : Nat) (as : List DbgName), n = as.length → NamesFree as → List.Forall₂ (NumberedOf as) as (dbgUniqueFlat n as) := by
  intro n
  induction n with
  | zero =>
    intro as hl _
    have : as = [] := List.length_eq_zero_iff.mp hl.symm
    subst this
    exact List.Forall₂.nil
  | succ n ih =>
    intro as hl hf
    cases as with
    | nil => simp at hl
    | cons a rest =>
      obtain ⟨f1, f2, f3, f4⟩ := dbgRename_free hf
      have hl' : n = (dbgRename a 0 rest).1.length := by rw [dbgRename_length]; simpa using hl
      show List.Forall₂ _ _ ((if a ∈ rest then a.number '_' 0 else a) :: dbgUniqueFlat n (dbgRename a 0 rest).1)
      refine List.Forall₂.cons ?_ ?_
      · by_cases ha : a ∈ rest
        · simp only [ha, if_true]
          refine ⟨fun h => ?_, Or.inr ⟨0, rfl⟩⟩
          rw [List.count_cons_self] at h
          have := List.count_pos_iff.mpr ha
          omega
        · simp only [ha, if_false]
          exact ⟨fun _ => rfl, Or.inl rfl⟩
      · have i := ih _ hl' f1
        by_cases ha : a ∈ rest
        · have hr := dbgRenameFrom_forall a rest 1
          have e : (dbgRename a 0 rest).1 = (dbgRenameFrom a 1 rest).1 := by unfold dbgRename; simp only [ha, if_true]
          rw [e] at i f4 ⊢
          have hnum : ∀ k : Nat, a.number '_' k ∉ rest := fun k => f3 k ha
          have hone : ∀ k : Nat, a.number '_' k ∈ (dbgRenameFrom a 1 rest).1 → (dbgRenameFrom a 1 rest).1.count (a.number '_' k) = 1 := by
            intro k hk
            have h1 := List.count_pos_iff.mpr hk
            have h2 := dbgRenameFrom_count_number a rest 1 k hnum
            split at h2 <;> omega
          have hcnt : ∀ x : DbgName, x ≠ a → x ∈ rest → (dbgRenameFrom a 1 rest).1.count x = rest.count x := by
            intro x hxa hx
            exact dbgRenameFrom_count a rest 1 x (fun k e => hnum k (by rw [← e]; exact hx)) hxa
          -- compose the two relations, with membership of the elements
          have hmem1 : ∀ x ∈ rest, x ∈ rest := fun _ h => h
          rw [List.forall₂_iff_get] at hr i ⊢
          obtain ⟨r1, r2⟩ := hr
          obtain ⟨j1, j2⟩ := i
          refine ⟨r1.trans j1, ?_⟩
          intro p hp hp'
          have hq : p < (dbgRenameFrom a 1 rest).1.length := by rw [← r1]; exact hp
          have A := r2 p hp hq
          have Bq := j2 p hq hp'
          have hxm : rest.get ⟨p, hp⟩ ∈ rest := List.get_mem _ _
          have hym : (dbgRenameFrom a 1 rest).1.get ⟨p, hq⟩ ∈ (dbgRenameFrom a 1 rest).1 := List.get_mem _ _
          generalize hxe : rest.get ⟨p, hp⟩ = x at A hxm ⊢
          generalize hye : (dbgRenameFrom a 1 rest).1.get ⟨p, hq⟩ = y at A Bq hym
          by_cases hxa : x = a
          · obtain ⟨k, hk⟩ := A.2 hxa
            have hz := Bq.1 (by rw [hk]; rw [hk] at hym; exact hone k hym)
            rw [hz, hk, hxa]
            refine ⟨fun h => ?_, Or.inr ⟨k, rfl⟩⟩
            rw [List.count_cons_self] at h
            have := List.count_pos_iff.mpr ha
            omega
          · have hyx := A.1 hxa
            rw [hyx] at Bq
            refine ⟨fun h => Bq.1 ?_, Bq.2⟩
            rw [List.count_cons_of_ne (fun e => hxa e.symm)] at h
            rw [hcnt x hxa hxm, h]
        · have e : (dbgRename a 0 rest).1 = rest := by unfold dbgRename; simp only [ha, if_false]
          rw [e] at i ⊢
          rw [List.forall₂_iff_get] at i ⊢
          refine ⟨i.1, ?_⟩
          intro p hp hp'
          have hxy := i.2 p hp hp'
          have hxm : rest.get ⟨p, hp⟩ ∈ rest := List.get_mem _ _
          refine ⟨fun h => hxy.1 ?_, hxy.2⟩
          rwa [List.count_cons_of_ne (fun e => ha (by rw [e]; exact hxm))] at h

/-- **C152.** No name is lost or moved to another place: after the names were made unique, every field has as many names as before, and if no name is a repeated name followed by an underscore and a
number, then all names of all fields are different, each is the old one or the old one with a number, and a name that occurs only once is not changed. -/
theorem debug_names_unique_partial (hs : List (List DbgName)) :
    (dbgMakeUnique hs).map List.length = hs.map List.length ∧
    (NamesFree hs.flatten → (dbgMakeUnique hs).flatten.Nodup ∧ List.Forall₂ (NumberedOf hs.flatten) hs.flatten (dbgMakeUnique hs).flatten) := by
  obtain ⟨h1, h2⟩ := dbgUniqueLoop_flat hs.length hs rfl
  refine ⟨h1, fun hf => ?_⟩
  unfold dbgMakeUnique
  rw [h2]
  exact ⟨dbgUniqueFlat_nodup _ _ rfl hf, dbgUniqueFlat_forall _ _ rfl hf⟩

/-- **C153.** The names are not unique for all fields: two components `a` and one `a_0` end up as `a_0`, `a_1` and `a_0`. -/
theorem debug_names_not_unique : dbgMakeUnique [["a".toList, "a".toList], ["a_0".toList]] = [["a_0".toList, "a_1".toList], ["a_0".toList]] ∧
    ¬ (dbgMakeUnique [["a".toList, "a".toList], ["a_0".toList]]).flatten.Nodup := by decide +kernel

/-- The hypothesis holds for the names of three fields with a repeated name, and the result is as expected. -/
example : NamesFree ([["Density".toList, "Pi".toList], ["Pi".toList], ["Pi".toList, "Momentum_0".toList]] : List (List DbgName)).flatten ∧
    dbgMakeUnique [["Density".toList, "Pi".toList], ["Pi".toList], ["Pi".toList, "Momentum_0".toList]] =
      [["Density".toList, "Pi_0".toList], ["Pi_1".toList], ["Pi_2".toList, "Momentum_0".toList]] := by
  constructor
  · intro b hb hb2 n hm
    have hb' : b = "Pi".toList := by
      simp only [List.flatten_cons, List.flatten_nil, List.mem_append, List.mem_cons, List.not_mem_nil, or_false] at hb
      rcases hb with (h | h) | h | h | h <;> first | exact h | (rw [h] at hb2; exact absurd hb2 (by decide +kernel))
    rw [hb'] at hm
    simp only [List.flatten_cons, List.flatten_nil, List.mem_append, List.mem_cons, List.not_mem_nil, or_false] at hm
    have hne : ∀ x : List Char, x[2]? ≠ some '_' → "Pi".toList ++ '_' :: Nat.toDigits 10 n ≠ x := by
      intro x hx e
      apply hx
      rw [← e]
      rfl
    rcases hm with (h | h) | h | h | h <;> exact hne _ (by decide +kernel) h
  · decide +kernel

/-! ### Directories of snapshots -/

theorem dbgSnapPass_cons (base d dir : DbgName) (ds : List DbgName) (c : Nat) (m : Bool) : dbgSnapPass base (d :: ds) (dir, c, m) =
    if d = dir then (base.number '-' c :: (dbgSnapPass base ds (base.number '-' (c + 1), c + 1, true)).1, (dbgSnapPass base ds (base.number '-' (c + 1), c + 1, true)).2)
    else (d :: (dbgSnapPass base ds (dir, c, m)).1, (dbgSnapPass base ds (dir, c, m)).2) := rfl

/-- A pass that meets no equal directory changes nothing. -/
theorem dbgSnapPass_not_mem (base : DbgName) : ∀ (ds : List DbgName) (dir : DbgName) (c : Nat) (m : Bool), dir ∉ ds →
    dbgSnapPass base ds (dir, c, m) = (ds, dir, c, m) := by
  intro ds
  induction ds with
  | nil => intro dir c m _; rfl
  | cons d ds ih =>
    intro dir c m h
    rw [dbgSnapPass_cons]
    have h1 : d ≠ dir := fun e => h (by rw [e]; simp)
    have h2 : dir ∉ ds := fun e => h (List.mem_cons_of_mem _ e)
    simp only [h1, if_false, ih dir c m h2]

/-- The number of directories that are the base with a number of at least `c`. -/
noncomputable def dbgAbove (base : DbgName) (c : Nat) (ds : List DbgName) : Nat :=
  by classical exact ds.countP (fun d => decide (∃ n : Nat, c ≤ n ∧ d = base.number '-' n))

theorem dbgAbove_cons (base d : DbgName) (c : Nat) (ds : List DbgName) : 
    ((∃ n : Nat, c ≤ n ∧ d = base.number '-' n) → dbgAbove base c (d :: ds) = dbgAbove base c ds + 1) ∧
    ((¬ ∃ n : Nat, c ≤ n ∧ d = base.number '-' n) → dbgAbove base c (d :: ds) = dbgAbove base c ds) := by
  classical
  unfold dbgAbove
  constructor
  · intro h; exact List.countP_cons_of_pos (by simpa using h)
  · intro h; exact List.countP_cons_of_neg (by simpa using h)

theorem dbgAbove_mono (base : DbgName) {c c' : Nat} (h : c ≤ c') (ds : List DbgName) : dbgAbove base c' ds ≤ dbgAbove base c ds := by
  classical
  unfold dbgAbove
  apply List.countP_mono_left
  intro d _ hd
  simp only [decide_eq_true_eq] at hd ⊢
  obtain ⟨n, h1, h2⟩ := hd
  exact ⟨n, by omega, h2⟩

/-- A pass with a numbered candidate keeps all directories; the number grows with every hit. -/
theorem dbgSnapPass_numbered (base : DbgName) : ∀ (ds : List DbgName) (c : Nat) (m : Bool), ∃ c' : Nat, c ≤ c' ∧
    dbgSnapPass base ds (base.number '-' c, c, m) = (ds, base.number '-' c', c', m || decide (c < c')) ∧
    dbgAbove base c' ds + (c' - c) ≤ dbgAbove base c ds := by
  intro ds
  induction ds with
  | nil => intro c m; exact ⟨c, le_refl c, by simp [dbgSnapPass], by simp⟩
  | cons d ds ih =>
    intro c m
    rw [dbgSnapPass_cons]
    by_cases hd : d = base.number '-' c
    · obtain ⟨c', h1, h2, h3⟩ := ih (c + 1) true
      refine ⟨c', by omega, ?_, ?_⟩
      · simp only [hd, if_true, h2]
        simp only [Bool.true_or, show c < c' by omega, decide_true, Bool.or_true]
      · rw [(dbgAbove_cons base d c ds).1 ⟨c, le_refl c, hd⟩, (dbgAbove_cons base d c' ds).2 ?_]
        · have := dbgAbove_mono base (show c ≤ c + 1 by omega) ds
          omega
        · rintro ⟨n, hn, e⟩
          have := (dbgNumber_inj (by decide) (hd.symm.trans e)).2
          omega
    · obtain ⟨c', h1, h2, h3⟩ := ih c m
      refine ⟨c', h1, ?_, ?_⟩
      · simp only [hd, if_false, h2]
      · by_cases hc' : ∃ n : Nat, c' ≤ n ∧ d = base.number '-' n
        · obtain ⟨n, hn, e⟩ := hc'
          rw [(dbgAbove_cons base d c' ds).1 ⟨n, hn, e⟩, (dbgAbove_cons base d c ds).1 ⟨n, by omega, e⟩]
          omega
        · rw [(dbgAbove_cons base d c' ds).2 hc']
          by_cases hc : ∃ n : Nat, c ≤ n ∧ d = base.number '-' n
          · rw [(dbgAbove_cons base d c ds).1 hc]; omega
          · rw [(dbgAbove_cons base d c ds).2 hc]; exact h3

theorem dbgSnapLoop_numbered (base : DbgName) : ∀ (fuel : Nat) (ds : List DbgName) (c : Nat), dbgAbove base c ds < fuel →
    ∃ c' : Nat, c ≤ c' ∧ dbgSnapLoop base fuel ds (base.number '-' c) c = some (ds, base.number '-' c') ∧ base.number '-' c' ∉ ds := by
  intro fuel
  induction fuel with
  | zero => intro ds c h; omega
  | succ fuel ih =>
    intro ds c h
    obtain ⟨c1, h1, h2, h3⟩ := dbgSnapPass_numbered base ds c false
    unfold dbgSnapLoop
    simp only [h2, Bool.false_or, decide_eq_true_eq]
    by_cases hc : c < c1
    · simp only [hc, if_true]
      obtain ⟨c', g1, g2, g3⟩ := ih ds c1 (by omega)
      exact ⟨c', by omega, g2, g3⟩
    · have : c1 = c := by omega
      subst this
      simp only [hc, if_false]
      refine ⟨c1, le_refl _, rfl, ?_⟩
      intro hm
      -- a hit would have increased the counter
      obtain ⟨pre, post, hp, hpre⟩ := List.eq_append_cons_of_mem hm
      have key : ∀ (pre post : List DbgName) (m : Bool), base.number '-' c1 ∉ pre →
          c1 < (dbgSnapPass base (pre ++ base.number '-' c1 :: post) (base.number '-' c1, c1, m)).2.2.1 := by
        intro pre
        induction pre with
        | nil =>
          intro post m _
          rw [List.nil_append, dbgSnapPass_cons]
          simp only [if_true]
          obtain ⟨k, k1, k2, _⟩ := dbgSnapPass_numbered base post (c1 + 1) true
          rw [k2]
          exact k1
        | cons x xs ihx =>
          intro post m hx
          have hx1 : x ≠ base.number '-' c1 := fun e => hx (by rw [e]; simp)
          have hx2 : base.number '-' c1 ∉ xs := fun e => hx (List.mem_cons_of_mem _ e)
          rw [List.cons_append, dbgSnapPass_cons]
          simp only [hx1, if_false]
          exact ihx post m hx2
      have := key pre post false hpre
      rw [← hp, h2] at this
      exact lt_irrefl _ this

theorem dbgAbove_le (base : DbgName) (c : Nat) (ds : List DbgName) : dbgAbove base c ds ≤ ds.length := by
  classical
  unfold dbgAbove
  exact List.countP_le_length

/-- The first pass, when a directory equals the base. -/
theorem dbgSnapPass_base (base : DbgName) : ∀ (pre post : List DbgName), base ∉ pre → ∃ c : Nat, 1 ≤ c ∧
    dbgSnapPass base (pre ++ base :: post) (base, 0, false) = (pre ++ base.number '-' 0 :: post, base.number '-' c, c, true) := by
  intro pre
  induction pre with
  | nil =>
    intro post _
    obtain ⟨c, h1, h2, _⟩ := dbgSnapPass_numbered base post 1 true
    refine ⟨c, h1, ?_⟩
    rw [List.nil_append, dbgSnapPass_cons]
    simp only [if_true, Nat.zero_add, h2, Bool.true_or, List.nil_append]
  | cons x xs ih =>
    intro post h
    have h1 : x ≠ base := fun e => h (by rw [e]; simp)
    have h2 : base ∉ xs := fun e => h (List.mem_cons_of_mem _ e)
    obtain ⟨c, hc, e⟩ := ih post h2
    refine ⟨c, hc, ?_⟩
    rw [List.cons_append, dbgSnapPass_cons]
    simp only [h1, if_false, e, List.cons_append]

/-- **C152.** Adding a snapshot always ends and the new snapshot gets a directory that no other snapshot has. If its name is not in use it gets this name and the others keep theirs. Otherwise the first
snapshot of this name gets the number 0 and the new one the first free later number; all other directories stay. -/
theorem debug_snapshot_directory (ds : List DbgName) (base : DbgName) (hb : base ≠ []) :
    ∃ (ds' : List DbgName) (new : DbgName), dbgAddSnapshot ds base = some (ds' ++ [new]) ∧ new ∉ ds' ∧
      (base ∉ ds → ds' = ds ∧ new = base) ∧
      (base ∈ ds → ∃ (pre post : List DbgName) (c : Nat), base ∉ pre ∧ ds = pre ++ base :: post ∧ ds' = pre ++ base.number '-' 0 :: post ∧ 1 ≤ c ∧ new = base.number '-' c) := by
  by_cases hm : base ∈ ds
  · obtain ⟨pre, post, hp, hpre⟩ := List.eq_append_cons_of_mem hm
    obtain ⟨c, h1, h2⟩ := dbgSnapPass_base base pre (post ++ [[]]) hpre
    have hfuel : dbgAbove base c (pre ++ base.number '-' 0 :: (post ++ [[]])) < ds.length + 3 := by
      have := dbgAbove_le base c (pre ++ base.number '-' 0 :: (post ++ [[]]))
      rw [hp]
      simp only [List.length_append, List.length_cons, List.length_nil] at this ⊢
      omega
    obtain ⟨c', g1, g2, g3⟩ := dbgSnapLoop_numbered base (ds.length + 3) _ c hfuel
    have heq : pre ++ base.number '-' 0 :: (post ++ [[]]) = (pre ++ base.number '-' 0 :: post) ++ [[]] := by simp
    refine ⟨pre ++ base.number '-' 0 :: post, base.number '-' c', ?_, ?_, fun h => absurd hm h, fun _ => ⟨pre, post, c', hpre, hp, rfl, by omega, rfl⟩⟩
    · have e : ds ++ [[]] = pre ++ base :: (post ++ [[]]) := by rw [hp]; simp
      unfold dbgAddSnapshot
      rw [e]
      show (dbgSnapLoop base (ds.length + 3 + 1) (pre ++ base :: (post ++ [[]])) base 0).map _ = _
      unfold dbgSnapLoop
      simp only [h2, if_true, g2, Option.map_some]
      rw [heq, List.dropLast_concat]
    · intro h
      apply g3
      rw [heq]
      exact List.mem_append_left _ h
  · have hm' : base ∉ ds ++ [[]] := by
      rw [List.mem_append]
      rintro (h | h)
      · exact hm h
      · exact hb (by simpa using h)
    refine ⟨ds, base, ?_, hm, fun _ => ⟨rfl, rfl⟩, fun h => absurd h hm⟩
    unfold dbgAddSnapshot
    show (dbgSnapLoop base (ds.length + 3 + 1) (ds ++ [[]]) base 0).map _ = _
    unfold dbgSnapLoop
    rw [dbgSnapPass_not_mem base _ base 0 false hm']
    simp only [Bool.false_eq_true, if_false, Option.map_some, List.dropLast_concat]

/-- **C153.** Different snapshots keep different directories as long as not both the new name and the new name with the number 0 are in use. -/
theorem debug_directories_distinct_partial (ds : List DbgName) (base : DbgName) (hb : base ≠ []) (hd : ds.Nodup) (hfree : base ∈ ds → base.number '-' 0 ∉ ds) :
    ∃ ds' : List DbgName, dbgAddSnapshot ds base = some ds' ∧ ds'.Nodup ∧ ds'.length = ds.length + 1 := by
  obtain ⟨ds', new, h1, h2, h3, h4⟩ := debug_snapshot_directory ds base hb
  refine ⟨ds' ++ [new], h1, ?_⟩
  by_cases hm : base ∈ ds
  · obtain ⟨pre, post, c, g1, g2, g3, _, _⟩ := h4 hm
    have hf := hfree hm
    rw [g2] at hd hf
    rw [g3] at h2 ⊢
    rw [g2]
    refine ⟨?_, by simp; omega⟩
    rw [List.nodup_append] at hd
    obtain ⟨d1, d2, d3⟩ := hd
    rw [List.nodup_cons] at d2
    simp only [List.mem_append, List.mem_cons, not_or] at hf
    rw [List.nodup_append]
    refine ⟨?_, by simp, ?_⟩
    · rw [List.nodup_append]
      refine ⟨d1, List.nodup_cons.mpr ⟨hf.2.2, d2.2⟩, ?_⟩
      intro a ha b hb'
      rcases List.mem_cons.mp hb' with e | e
      · rw [e]; intro e'; exact hf.1 (by rw [← e']; exact ha)
      · exact d3 a ha b (List.mem_cons_of_mem _ e)
    · intro a ha b hb'
      have : b = new := by simpa using hb'
      rw [this]
      intro e
      exact h2 (by rw [← e]; exact ha)
  · obtain ⟨e1, e2⟩ := h3 hm
    rw [e1, e2]
    refine ⟨?_, by simp⟩
    rw [List.nodup_append]
    refine ⟨hd, by simp, ?_⟩
    intro a ha b hb'
    have : b = base := by simpa using hb'
    rw [this]
    intro e
    exact hm (by rw [← e]; exact ha)

/-- **C153.** Four snapshots of the same name, as the flux methods add them for every sweep of a cycle, get three directories: the first and the third one are written to the same files. -/
theorem debug_directories_collide : ((((dbgAddSnapshot [] "Fluxes_0".toList).bind (dbgAddSnapshot · "Fluxes_0".toList)).bind (dbgAddSnapshot · "Fluxes_0".toList)).bind
    (dbgAddSnapshot · "Fluxes_0".toList)) = some ["Fluxes_0-0".toList, "Fluxes_0-1".toList, "Fluxes_0-0".toList, "Fluxes_0-2".toList] := by decide +kernel

/-- Two snapshots with the same name. -/
example : (dbgAddSnapshot ["pre".toList, "rhs".toList] "pre".toList) = some ["pre-0".toList, "rhs".toList, "pre-1".toList] ∧
    ("pre".toList ∈ ["pre".toList, "rhs".toList] → DbgName.number '-' "pre".toList 0 ∉ ["pre".toList, "rhs".toList]) := by decide +kernel

/-! ### Partitions -/

theorem dbgPartitions_cons {A P : Type} [DecidableEq P] (key : A → P) (i : A) (is : List A) :
    dbgPartitions key (i :: is) = (i :: is.filter (fun j => key i = key j)) :: dbgPartitions key (is.filter (fun j => ¬ key i = key j)) := by
  rw [dbgPartitions]

/-- **C152.** The grouping by boxes: every entry is in exactly one group, the order inside a group is the old one, no group is empty, and two entries are in the same group if and only if they have the
same key. -/
theorem debug_partitions {A P : Type} [DecidableEq P] (key : A → P) (l : List A) :
    (dbgPartitions key l).flatten.Perm l ∧ (∀ g ∈ dbgPartitions key l, g ≠ [] ∧ g.Sublist l ∧ ∀ x ∈ g, ∀ y ∈ g, key x = key y) ∧
    (dbgPartitions key l).Pairwise (fun g h => ∀ x ∈ g, ∀ y ∈ h, key x ≠ key y) := by
  generalize hn : l.length = n
  induction n using Nat.strong_induction_on generalizing l with
  | _ n ih =>
    cases l with
    | nil => simp [dbgPartitions]
    | cons i is =>
      have hlt : (is.filter (fun j => ¬ key i = key j)).length < n := by
        rw [← hn, List.length_cons]
        exact Nat.lt_succ_of_le (List.length_filter_le _ _)
      obtain ⟨h1, h2, h3⟩ := ih _ hlt (is.filter (fun j => ¬ key i = key j)) rfl
      rw [dbgPartitions_cons]
      have hmem : ∀ g ∈ dbgPartitions key (is.filter (fun j => ¬ key i = key j)), ∀ y ∈ g, key i ≠ key y := by
        intro g hg y hy
        have := (h2 g hg).2.1.subset hy
        rw [List.mem_filter] at this
        simpa using this.2
      refine ⟨?_, ?_, ?_⟩
      · rw [List.flatten_cons, List.cons_append]
        apply List.Perm.cons
        refine (List.Perm.append_left _ h1).trans ?_
        have := List.filter_append_perm (fun j => decide (key i = key j)) is
        simpa using this
      · intro g hg
        rcases List.mem_cons.mp hg with e | e
        · rw [e]
          have hk : ∀ x ∈ i :: is.filter (fun j => key i = key j), key x = key i := by
            intro x hx
            rcases List.mem_cons.mp hx with e' | e'
            · rw [e']
            · rw [List.mem_filter] at e'
              simpa using (by simpa using e'.2 : key i = key x).symm
          exact ⟨by simp, (List.filter_sublist).cons_cons i, fun x hx y hy => (hk x hx).trans (hk y hy).symm⟩
        · obtain ⟨k1, k2, k3⟩ := h2 g e
          exact ⟨k1, (k2.trans List.filter_sublist).cons i, k3⟩
      · rw [List.pairwise_cons]
        refine ⟨?_, h3⟩
        intro g hg x hx y hy
        have hne := hmem g hg y hy
        rcases List.mem_cons.mp hx with e' | e'
        · rw [e']; exact hne
        · rw [List.mem_filter] at e'
          have : key i = key x := by simpa using e'.2
          rw [← this]; exact hne

/-! ### Gathering the fields -/

section
variable {B D G : Type}

/-- The values of component `i` on all levels of a list of levels. -/
def dbgColumnAt (ls : List (DbgLevel B D)) (i : Nat) : List (B × Option D) := ls.map (fun l => (l.boxes, l.comps[i]?))

theorem dbgColumns_eq (f : DbgField B D G) : dbgColumns f = f.names.zipIdx.map (fun p => (p.1, dbgColumnAt f.levels p.2)) := rfl

/-- The levels of the joined field over given boxes. -/
def dbgJoinLevels (bs : List B) (fs : List (DbgField B D G)) : List (DbgLevel B D) :=
  bs.mapIdx (fun l b => ⟨b, fs.flatMap (fun g => g.compsAt l)⟩)

theorem dbgJoin_levels (loc : DbgLoc) (f : DbgField B D G) (fs : List (DbgField B D G)) : (dbgJoin loc (f :: fs)).levels = dbgJoinLevels f.boxes (f :: fs) := by
  unfold dbgJoinLevels DbgField.boxes
  apply List.ext_getElem
  · simp [dbgJoin]
  · intro i h1 h2
    simp [dbgJoin]

theorem dbgJoin_columns_aux (bs : List B) : ∀ (fs : List (DbgField B D G)), (∀ g ∈ fs, g.Named ∧ g.boxes = bs) →
    (fs.flatMap (·.names)).zipIdx.map (fun p => (p.1, dbgColumnAt (dbgJoinLevels bs fs) p.2)) = fs.flatMap dbgColumns := by
  intro fs
  induction fs with
  | nil => intro _; rfl
  | cons g gs ih =>
    intro h
    obtain ⟨hg, hgb⟩ := h g (by simp)
    have hgs := ih (fun x hx => h x (List.mem_cons_of_mem _ hx))
    have hlen : bs.length = g.levels.length := by rw [← hgb]; simp [DbgField.boxes]
    have hcomp : ∀ (l : Nat) (hl : l < g.levels.length), g.levels[l].comps.length = g.names.length := fun l hl => hg _ (List.getElem_mem hl)
    rw [List.flatMap_cons, List.flatMap_cons, List.zipIdx_append, List.map_append, ← hgs]
    congr 1
    · rw [dbgColumns_eq]
      apply List.map_congr_left
      intro p hp
      obtain ⟨a, i⟩ := p
      have hi : i < g.names.length := by
        have := List.mem_zipIdx hp
        omega
      congr 1
      apply List.ext_getElem
      · simp [dbgColumnAt, dbgJoinLevels, hlen]
      · intro l h1 h2
        have hl : l < g.levels.length := by simpa [dbgColumnAt] using h2
        have hga : g.compsAt l = g.levels[l].comps := by unfold DbgField.compsAt; rw [List.getElem?_eq_getElem hl]
        have hb : bs[l]'(by omega) = g.levels[l].boxes := by
          have : bs = g.levels.map (·.boxes) := hgb.symm
          simp only [this, List.getElem_map]
        simp only [dbgColumnAt, dbgJoinLevels, List.getElem_map, List.getElem_mapIdx, List.flatMap_cons, hga, hb]
        rw [List.getElem?_append_left (by rw [hcomp l hl]; exact hi)]
    · rw [Nat.zero_add, List.zipIdx_eq_map_add, List.map_map]
      apply List.map_congr_left
      intro p hp
      obtain ⟨a, i⟩ := p
      simp only [Function.comp]
      congr 1
      apply List.ext_getElem
      · simp [dbgColumnAt, dbgJoinLevels]
      · intro l h1 h2
        have hl : l < g.levels.length := by rw [← hlen]; simpa [dbgColumnAt, dbgJoinLevels] using h2
        have hga : g.compsAt l = g.levels[l].comps := by unfold DbgField.compsAt; rw [List.getElem?_eq_getElem hl]
        simp only [dbgColumnAt, dbgJoinLevels, List.getElem_map, List.getElem_mapIdx, List.flatMap_cons, hga]
        rw [List.getElem?_append_right (by rw [hcomp l hl]; omega), hcomp l hl, Nat.add_sub_cancel_left]

theorem dbgJoin_columns (loc : DbgLoc) (fs : List (DbgField B D G)) (hw : ∀ g ∈ fs, g.Named) (hb : ∀ x ∈ fs, ∀ y ∈ fs, x.boxes = y.boxes) :
    dbgColumns (dbgJoin loc fs) = fs.flatMap dbgColumns := by
  cases fs with
  | nil => rfl
  | cons f fs =>
    rw [dbgColumns_eq, dbgJoin_levels]
    exact dbgJoin_columns_aux f.boxes (f :: fs) (fun g hg => ⟨hw g hg, hb g hg f (by simp)⟩)

theorem dbgJoin_boxes (loc : DbgLoc) (p : List (DbgField B D G)) (hp : p ≠ []) : (dbgJoin loc p).boxes = (p.head hp).boxes := by
  cases p with
  | nil => exact absurd rfl hp
  | cons f fs =>
    unfold DbgField.boxes
    rw [dbgJoin_levels]
    apply List.ext_getElem
    · simp [dbgJoinLevels, DbgField.boxes]
    · intro i _ _
      simp [dbgJoinLevels, DbgField.boxes]

/-- **C152.** Gathering the fields of a location loses, duplicates and mixes nothing: the components of all outputs, each with its name and with its boxes and values on all levels, are those of the
saved fields of this location. Different outputs have different boxes. -/
theorem debug_gather_columns [DecidableEq B] (saved : List (DbgField B D G)) (loc : DbgLoc) (hw : ∀ f ∈ saved, f.Named) :
    ((dbgGather saved loc).flatMap dbgColumns).Perm ((saved.filter (fun f => f.loc = loc)).flatMap dbgColumns) ∧
    ((dbgGather saved loc).map DbgField.boxes).Nodup := by
  obtain ⟨h1, h2, h3⟩ := debug_partitions DbgField.boxes (saved.filter (fun f => f.loc = loc))
  constructor
  · have e : (dbgGather saved loc).flatMap dbgColumns = (dbgPartitions DbgField.boxes (saved.filter (fun f => f.loc = loc))).flatten.flatMap dbgColumns := by
      unfold dbgGather
      rw [List.flatMap_map, List.flatMap_def, List.flatMap_def, List.map_flatten, List.flatten_flatten, List.map_map]
      rw [← List.flatMap_def, Function.comp_def]
      simp only [← List.flatMap_def]
      apply List.flatMap_congr
      intro g hg
      obtain ⟨_, k2, k3⟩ := h2 g hg
      exact dbgJoin_columns loc g (fun x hx => hw x (List.mem_of_mem_filter (k2.subset hx))) k3
    rw [e]
    exact h1.flatMap_right _
  · unfold dbgGather
    rw [List.map_map, List.Nodup, List.pairwise_map]
    refine List.Pairwise.imp_of_mem ?_ h3
    intro g h hg hh hne
    obtain ⟨g1, _, _⟩ := h2 g hg
    obtain ⟨k1, _, _⟩ := h2 h hh
    simp only [Function.comp]
    rw [dbgJoin_boxes loc g g1, dbgJoin_boxes loc h k1]
    exact hne _ (List.head_mem g1) _ (List.head_mem k1)

theorem dbgFilter_keys {A P : Type} [DecidableEq P] (key : A → P) : ∀ (ks : List P) (l : List A), ks.Nodup → (∀ x ∈ l, key x ∈ ks) →
    (ks.flatMap (fun k => l.filter (fun x => k = key x))).Perm l := by
  intro ks
  induction ks with
  | nil =>
    intro l _ h
    cases l with
    | nil => simp
    | cons x xs => exact absurd (h x (by simp)) (by simp)
  | cons k ks ih =>
    intro l hn h
    rw [List.nodup_cons] at hn
    have hrest := ih (l.filter (fun x => ¬ k = key x)) hn.2 (by
      intro x hx
      rw [List.mem_filter] at hx
      have hne : ¬ k = key x := by simpa using hx.2
      rcases List.mem_cons.mp (h x hx.1) with e | e
      · exact absurd e.symm hne
      · exact e)
    have e : ks.flatMap (fun k' => (l.filter (fun x => ¬ k = key x)).filter (fun x => k' = key x)) = ks.flatMap (fun k' => l.filter (fun x => k' = key x)) := by
      apply List.flatMap_congr
      intro k' hk'
      rw [List.filter_filter]
      apply List.filter_congr
      intro x _
      by_cases hx : k' = key x
      · have : ¬ k = key x := fun e => hn.1 (by rw [e, ← hx]; exact hk')
        simp [hx, this]
      · simp [hx]
    rw [e] at hrest
    rw [List.flatMap_cons]
    refine (List.Perm.append_left _ hrest).trans ?_
    have := List.filter_append_perm (fun x => decide (k = key x)) l
    simpa using this

/-- **C152.** `SaveData` keeps everything saved before and adds the chosen components with their names; every component has a name afterwards. An empty proxy stores nothing. -/
theorem debug_save (saved saved' : List (DbgField B D G)) (loc : DbgLoc) (src : List (DbgLevel B D)) (names : List DbgName) (geoms : List G) (first : Nat)
    (h : dbgSave saved loc src names geoms first = some saved') (hw : ∀ f ∈ saved, f.Named) :
    (∀ f ∈ saved', f.Named) ∧ ∃ f : DbgField B D G, saved' = saved ++ [f] ∧ f.loc = loc ∧ f.geoms = geoms ∧
      dbgColumns f = names.zipIdx.map (fun p => (p.1, src.map (fun l => (l.boxes, l.comps[first + p.2]?)))) := by
  unfold dbgSave at h
  by_cases hc : ∀ l ∈ src, first + names.length ≤ l.comps.length
  · rw [if_pos hc, Option.some.injEq] at h
    subst h
    constructor
    · intro f hf
      rcases List.mem_append.mp hf with h1 | h1
      · exact hw f h1
      · have : f = _ := List.mem_singleton.mp h1
        subst this
        intro l hl
        dsimp only at hl ⊢
        obtain ⟨l', hl', rfl⟩ := List.mem_map.mp hl
        have := hc l' hl'
        simp only [List.length_take, List.length_drop]
        omega
    · refine ⟨_, rfl, rfl, rfl, ?_⟩
      unfold dbgColumns
      dsimp only
      apply List.map_congr_left
      intro p hp
      obtain ⟨a, i⟩ := p
      have hi : i < names.length := by
        have := List.mem_zipIdx hp
        omega
      rw [List.map_map]
      congr 1
      apply List.map_congr_left
      intro l _
      simp only [Function.comp]
      rw [List.getElem?_take_of_lt hi, List.getElem?_drop]
  · rw [if_neg hc] at h
    exact absurd h (by simp)

theorem dbgAverage_named (enclosed : B → B) (avg : DbgLoc → D → D) (f : DbgField B D G) (hf : f.Named) : (dbgAverage enclosed avg f).Named := by
  intro l hl
  obtain ⟨l', hl', rfl⟩ := List.mem_map.mp hl
  simp only [dbgAverage, List.length_map]
  exact hf l' hl'

theorem dbgAverage_boxes (enclosed : B → B) (avg : DbgLoc → D → D) (f : DbgField B D G) : (dbgAverage enclosed avg f).boxes = f.boxes.map enclosed := by
  unfold dbgAverage DbgField.boxes
  rw [List.map_map, List.map_map]
  rfl

/-- Every saved field has its boxes in one of the outputs. -/
theorem dbgGather_has_boxes [DecidableEq B] (saved : List (DbgField B D G)) (loc : DbgLoc) (f : DbgField B D G) (hf : f ∈ saved) (hl : f.loc = loc) :
    f.boxes ∈ (dbgGather saved loc).map DbgField.boxes := by
  obtain ⟨p1, p2, _⟩ := debug_partitions DbgField.boxes (saved.filter (fun f => f.loc = loc))
  have hmem : f ∈ saved.filter (fun f => f.loc = loc) := List.mem_filter.mpr ⟨hf, by simpa using hl⟩
  obtain ⟨grp, hgrp, hin⟩ := List.mem_flatten.mp (p1.mem_iff.mpr hmem)
  obtain ⟨q1, _, q3⟩ := p2 grp hgrp
  have hbox : (dbgJoin loc grp).boxes = f.boxes := by
    rw [dbgJoin_boxes loc grp q1]
    exact q3 _ (List.head_mem q1) f hin
  rw [← hbox]
  exact List.mem_map_of_mem (List.mem_map_of_mem hgrp)

/-- The plot files of given fields and fields at nodes or faces. -/
def dbgPlots [DecidableEq B] (enclosed : B → B) (avg : DbgLoc → D → D) (named outer : List (DbgField B D G)) : List (DbgPlot B D G) :=
  (dbgGather (named ++ outer.map (dbgAverage enclosed avg)) .cell).map (fun p => ⟨p, outer.filter (fun f => p.boxes = f.boxes.map enclosed)⟩)

theorem dbgPlots_complete [DecidableEq B] (enclosed : B → B) (avg : DbgLoc → D → D) (named outer : List (DbgField B D G)) (hw : ∀ f ∈ named, f.Named) (ho : ∀ f ∈ outer, f.Named) :
    ((dbgPlots enclosed avg named outer).flatMap (fun p => dbgColumns p.cells)).Perm
      ((named.filter (fun f => f.loc = .cell)).flatMap dbgColumns ++ (outer.map (dbgAverage enclosed avg)).flatMap dbgColumns) ∧
    ((dbgPlots enclosed avg named outer).flatMap (·.raw)).Perm outer ∧
    (∀ p ∈ dbgPlots enclosed avg named outer, ∀ f ∈ p.raw, p.cells.boxes = f.boxes.map enclosed) ∧
    ((dbgPlots enclosed avg named outer).map (fun p => p.cells.boxes)).Nodup := by
  have hall : ∀ f ∈ named ++ outer.map (dbgAverage enclosed avg), f.Named := by
    intro f hf
    rcases List.mem_append.mp hf with h | h
    · exact hw f h
    · obtain ⟨g, hg, rfl⟩ := List.mem_map.mp h
      exact dbgAverage_named enclosed avg g (ho g hg)
  have hfilt : (named ++ outer.map (dbgAverage enclosed avg)).filter (fun f => f.loc = .cell) = named.filter (fun f => f.loc = .cell) ++ outer.map (dbgAverage enclosed avg) := by
    rw [List.filter_append]
    congr 1
    rw [List.filter_eq_self]
    intro f hf
    obtain ⟨g, _, rfl⟩ := List.mem_map.mp hf
    rfl
  obtain ⟨g1, g2⟩ := debug_gather_columns (named ++ outer.map (dbgAverage enclosed avg)) .cell hall
  rw [hfilt, List.flatMap_append] at g1
  have hin : ∀ f ∈ outer, f.boxes.map enclosed ∈ (dbgGather (named ++ outer.map (dbgAverage enclosed avg)) .cell).map DbgField.boxes := by
    intro f hf
    rw [← dbgAverage_boxes enclosed avg f]
    exact dbgGather_has_boxes _ .cell _ (List.mem_append_right _ (List.mem_map_of_mem hf)) rfl
  unfold dbgPlots
  generalize dbgGather (named ++ outer.map (dbgAverage enclosed avg)) .cell = gs at g1 g2 hin ⊢
  refine ⟨?_, ?_, ?_, ?_⟩
  · rw [List.flatMap_map]
    exact g1
  · have e : (gs.map (fun p => (⟨p, outer.filter (fun f => p.boxes = f.boxes.map enclosed)⟩ : DbgPlot B D G))).flatMap (·.raw) =
        (gs.map DbgField.boxes).flatMap (fun k => outer.filter (fun f => k = f.boxes.map enclosed)) := by
      rw [List.flatMap_map, List.flatMap_map]
    rw [e]
    exact dbgFilter_keys (fun f : DbgField B D G => f.boxes.map enclosed) _ _ g2 hin
  · intro p hp f hf
    obtain ⟨q, _, rfl⟩ := List.mem_map.mp hp
    have := (List.mem_filter.mp hf).2
    simpa using this
  · rw [List.map_map]
    exact g2

theorem dbgSetNames_named (saved : List (DbgField B D G)) (hw : ∀ f ∈ saved, f.Named) :
    ∀ f ∈ dbgSetNames saved (dbgMakeUnique (saved.map (·.names))), f.Named := by
  have hl1 := (debug_names_unique_partial (saved.map (·.names))).1
  generalize dbgMakeUnique (saved.map (·.names)) = ns at hl1
  intro f hf
  unfold dbgSetNames at hf
  obtain ⟨i, hi, e⟩ := List.getElem_of_mem hf
  have hi1 : i < saved.length := by rw [List.length_zipWith] at hi; omega
  have hi2 : i < ns.length := by rw [List.length_zipWith] at hi; omega
  rw [List.getElem_zipWith] at e
  rw [← e]
  intro l hl
  dsimp only at hl ⊢
  rw [hw _ (List.getElem_mem hi1) l hl]
  have hg : (ns.map List.length)[i]? = ((saved.map (·.names)).map List.length)[i]? := by rw [hl1]
  rw [List.getElem?_map, List.getElem?_map, List.getElem?_map, List.getElem?_eq_getElem hi2, List.getElem?_eq_getElem hi1] at hg
  simpa using hg.symm

/-- **C152.** What `FlushData` writes for a snapshot: with the unique names, the plot files contain every component of the cell fields and the cell averages of every component of the other fields
once, with its name, boxes and values. Every field at nodes or faces is written as it is next to exactly one plot file, and this plot file has its cells. -/
theorem debug_flush_complete [DecidableEq B] (enclosed : B → B) (avg : DbgLoc → D → D) (saved : List (DbgField B D G)) (hw : ∀ f ∈ saved, f.Named)
    (named outer : List (DbgField B D G)) (hnamed : named = List.zipWith (fun f n => { f with names := n }) saved (dbgMakeUnique (saved.map (·.names))))
    (houter : outer = named.filter (fun f => f.loc ≠ .cell)) :
    ((dbgFlush enclosed avg saved).flatMap (fun p => dbgColumns p.cells)).Perm
      ((named.filter (fun f => f.loc = .cell)).flatMap dbgColumns ++ (outer.map (dbgAverage enclosed avg)).flatMap dbgColumns) ∧
    ((dbgFlush enclosed avg saved).flatMap (·.raw)).Perm outer ∧
    (∀ p ∈ dbgFlush enclosed avg saved, ∀ f ∈ p.raw, p.cells.boxes = f.boxes.map enclosed) ∧
    ((dbgFlush enclosed avg saved).map (fun p => p.cells.boxes)).Nodup := by
  have h1 : ∀ f ∈ named, f.Named := by rw [hnamed]; exact dbgSetNames_named saved hw
  have h2 : ∀ f ∈ outer, f.Named := by
    intro f hf
    rw [houter] at hf
    exact h1 f (List.mem_of_mem_filter hf)
  have e : dbgFlush enclosed avg saved = dbgPlots enclosed avg named outer := by
    rw [houter, hnamed]
    rfl
  rw [e]
  exact dbgPlots_complete enclosed avg named outer h1 h2

end

/-- A cell field and a node field of two components on the cells 0, 1, a cell field on the cells 2, 3, a second one on the first cells; boxes are numbers of cells, data are numbers. -/
example : let saved : List (DbgField Nat Nat Unit) := [⟨.cell, ["rho".toList], [⟨1, [10]⟩], [()]⟩, ⟨.node, ["pi".toList, "rho".toList], [⟨101, [20, 30]⟩], [()]⟩,
      ⟨.cell, ["e".toList], [⟨2, [40]⟩], [()]⟩, ⟨.cell, ["u".toList], [⟨1, [50]⟩], [()]⟩]
    (∀ f ∈ saved, ∀ l ∈ f.levels, l.comps.length = f.names.length) ∧
    (dbgFlush (fun b => b - 100 * (b / 100)) (fun _ d => d + 1) saved).map (fun p => (p.cells.names.map String.ofList, p.cells.levels.map (fun l => (l.boxes, l.comps)), p.raw.map (fun f => f.names.map String.ofList))) =
      [(["rho_0", "u", "pi_nd2cellavg", "rho_1_nd2cellavg"], [(1, [10, 50, 21, 31])], [["pi", "rho_1"]]), (["e"], [(2, [40])], [])] := by decide +kernel

/-- **C152.** The average of faces to cells is exact for linear functions of the coordinate: with the faces at `x₀ + i Δx` it gives the value at the centre of the cell. -/
theorem debug_face_average_linear {K : Type} [Field K] [CharZero K] (a b x0 dx : K) (i : Int) :
    dbgFaceAverage (fun j : Int => a + b * (x0 + j * dx)) i = a + b * (x0 + (i + 1 / 2) * dx) := by
  unfold dbgFaceAverage
  push_cast
  field_simp
  ring

/-- **C152.** The cycle numbers in the file names: the given number, or one more than the last one if none is given. -/
theorem debug_cycle (last cycle : Int) : (0 ≤ cycle → dbgCycle last cycle = cycle) ∧ (cycle < 0 → dbgCycle last cycle = last + 1) := by
  unfold dbgCycle
  constructor
  · intro h; rw [if_neg (not_lt.mpr h)]
  · intro h; rw [if_pos h]

/-- **C153.** The joined field takes the geometries of its first member: two fields with equal boxes on different domains are written with one of them. -/
theorem debug_gather_geometry : ((dbgGather [(⟨.cell, ["a".toList], [⟨1, [10]⟩], [7]⟩ : DbgField Nat Nat Nat), ⟨.cell, ["b".toList], [⟨1, [20]⟩], [8]⟩] .cell).map (fun f => (f.names, f.geoms))) =
    [(["a".toList, "b".toList], [7])] := by decide +kernel

end Fub
