import Verif.Spec.States
import Verif.Props.Layout

namespace Fub

theorem stridesLeft_length (ext : List Nat) : (stridesLeft ext).length = ext.length := by simp [stridesLeft]

theorem stridesLeft_snoc (ext : List Nat) (n : Nat) : stridesLeft (ext ++ [n]) = stridesLeft ext ++ [ext.prod] := by
  induction ext with
  | nil => simp [stridesLeft, strideLeft]
  | cons e es ih => rw [List.cons_append, stridesLeft_cons, ih, stridesLeft_cons]; simp

theorem dot_snoc (s : List Nat) (i : List Int) (c : Nat) (k : Int) (h : s.length = i.length) :
    dot (s ++ [c]) (i ++ [k]) = dot s i + (c : Int) * k := by
  simp only [dot]
  rw [List.zipWith_append h]
  simp

theorem dot_zeros (s : List Nat) (n : Nat) : dot s (List.replicate n 0) = 0 := by
  induction s generalizing n with
  | nil => simp [dot]
  | cons a s ih =>
    cases n with
    | zero => simp [dot]
    | succ n => rw [List.replicate_succ, dot_cons, ih]; simp

theorem dot_sub_self (s : List Nat) (o : List Int) : dot s (List.zipWith (fun (a b : Int) => a - b) o o) = 0 := by
  induction o generalizing s with
  | nil => simp [dot]
  | cons a o ih =>
    cases s with
    | nil => simp [dot]
    | cons b s => rw [List.zipWith_cons_cons, dot_cons, ih]; simp

theorem cellNumber_eq (len : List Nat) (i : List Int) : cellNumber len i = mapLeft len i := by
  induction len generalizing i with
  | nil => simp [cellNumber, mapLeft, dot, stridesLeft]
  | cons n ns ih =>
    cases i with
    | nil => simp [cellNumber, mapLeft, dot]
    | cons a is => rw [cellNumber, mapLeft_cons, ih]

/-- The cell number of a cell which is the lowest one in the last directions. -/
theorem cellNumber_fabCell (rank : Nat) (lo : List Int) (len : List Nat) (i : List Int) (h : i.length = rank)
    (hr : rank ≤ lo.length) :
    cellNumber len (List.zipWith (fun (a b : Int) => a - b) (fabCell rank lo i) lo) =
      dot (stridesLeft (len.take rank)) (List.zipWith (fun (a b : Int) => a - b) i (lo.take rank)) := by
  rw [← mapLeft, ← cellNumber_eq]
  induction rank generalizing lo len i with
  | zero =>
    have : i = [] := List.length_eq_zero_iff.1 h
    subst this
    simp only [fabCell, List.nil_append, List.drop_zero, List.take_zero, cellNumber]
    rw [cellNumber_eq, mapLeft, dot_sub_self]
  | succ r ih =>
    cases i with
    | nil => simp at h
    | cons a is =>
      cases lo with
      | nil => simp at hr
      | cons b lo =>
        cases len with
        | nil => simp [cellNumber]
        | cons n len =>
          simp only [fabCell, List.cons_append, List.drop_succ_cons, List.zipWith_cons_cons, List.take_succ_cons, cellNumber]
          have := ih lo len is (by simpa using h) (by simpa using hr)
          rw [fabCell] at this
          rw [this]

theorem fab_base (data : Int) (lo : List Int) (len : List Nat) (nComp c : Nat) :
    (fabView data lo len nComp).mds.addr (List.replicate len.length 0 ++ [(c : Int)]) = data + (c : Int) * (len.prod : Nat) := by
  simp only [fabView, MdSpan.mkLeft, MdSpan.addr, stridesLeft_snoc]
  rw [dot_snoc _ _ _ _ (by simp [stridesLeft_length]), dot_zeros]
  ring

theorem atComponent_addr (rank : Nat) (str : List Nat) (org : List Int) (v : StView) (h : VarWF rank str org (.vector v)) (k : Nat)
    (i : List Int) : (atComponent rank v k).addr i =
      v.mds.base + (v.mds.str.getD rank 0 : Nat) * (k : Int) + dot str (List.zipWith (fun (a b : Int) => a - b) i org) ∧
      (atComponent rank v k).mds.str = str ∧ (atComponent rank v k).org = org := by
  obtain ⟨⟨c, o, hs, ho⟩, hl, hol, he, hleft⟩ := h
  have hc : v.mds.str.getD rank 0 = c := by rw [hs, ← hl]; simp
  have hbase : v.mds.addr (List.replicate rank 0 ++ [(k : Int)]) = v.mds.base + (c : Int) * (k : Int) := by
    rw [MdSpan.addr, hs, dot_snoc _ _ _ _ (by simp [hl]), dot_zeros]; ring
  have ht : v.mds.str.take rank = str := by rw [hs, ← hl]; simp
  have hto : v.org.take rank = org := by rw [ho, ← hol]; simp
  rw [hc]
  unfold atComponent
  cases hlay : v.mds.layout with
  | stride =>
    dsimp only
    refine ⟨?_, ht, hto⟩
    simp only [StView.addr, MdSpan.addr] at hbase ⊢
    rw [ht, hto, hbase]
  | left =>
    dsimp only
    have hstr : stridesLeft (v.mds.ext.take rank) = str := by rw [← stridesLeft_take, ← hleft hlay, ht]
    refine ⟨?_, hstr, hto⟩
    simp only [StView.addr, MdSpan.addr, MdSpan.mkLeft] at hbase ⊢
    rw [hstr, hto, hbase]

/-! ### Memory -/

section
variable {K : Type}

theorem memWrites_cons (mem : Int → K) (w : Int × K) (ws : List (Int × K)) :
    memWrites mem (w :: ws) = memWrites (Function.update mem w.1 w.2) ws := rfl

theorem memWrites_other (mem : Int → K) (ws : List (Int × K)) (a : Int) (h : ∀ w ∈ ws, w.1 ≠ a) : memWrites mem ws a = mem a := by
  induction ws generalizing mem with
  | nil => rfl
  | cons w ws ih =>
    rw [memWrites_cons, ih _ (fun x hx => h x (by simp [hx])), Function.update_of_ne (Ne.symm (h w (by simp)))]

theorem memWrites_mem (mem : Int → K) (ws : List (Int × K)) (hn : (ws.map Prod.fst).Nodup) (w : Int × K) (h : w ∈ ws) :
    memWrites mem ws w.1 = w.2 := by
  induction ws generalizing mem with
  | nil => simp at h
  | cons v ws ih =>
    rw [memWrites_cons]
    rw [List.map_cons, List.nodup_cons] at hn
    rcases List.mem_cons.1 h with rfl | h
    · rw [memWrites_other _ _ _ (fun x hx he => hn.1 (by rw [← he]; exact List.mem_map_of_mem hx))]
      exact Function.update_self ..
    · exact ih _ hn.2 h

theorem memWrites_zip (mem : Int → K) (as : List Int) (xs : List K) (h : as.length = xs.length) (hn : as.Nodup) :
    as.map (memWrites mem (as.zip xs)) = xs := by
  apply List.ext_getElem (by simpa using h)
  intro n h1 h2
  rw [List.getElem_map]
  have hn' : ((as.zip xs).map Prod.fst).Nodup := by rw [List.map_fst_zip (le_of_eq h)]; exact hn
  have hm : ((as[n]'(by simpa using h1)), xs[n]) ∈ as.zip xs := by
    rw [List.mem_iff_getElem]
    exact ⟨n, by simp; omega, by simp⟩
  exact memWrites_mem mem _ hn' _ hm

end

end Fub

namespace Fub

/-! ### Sub-views -/

theorem sliceStrides_ranges (str : List Nat) (ab : List (Int × Int)) (h : str.length = ab.length) :
    sliceStrides str (ab.map fun p => Slice.range p.1 p.2) = str := by
  induction str generalizing ab with
  | nil => simp [sliceStrides]
  | cons s str ih =>
    cases ab with
    | nil => simp at h
    | cons p ab =>
      have := ih ab (by simpa using h)
      simp only [sliceStrides, List.map_cons, List.zip_cons_cons] at this ⊢
      rw [List.filter_cons_of_pos (by simp [Slice.isRange]), List.map_cons, this]

theorem zipWith_ranges (as ws : List Int) :
    List.zipWith (fun (a : Int) (w : Int) => Slice.range a (a + w)) as ws = (as.zip ws).map (fun p : Int × Int => Slice.range p.1 (p.1 + p.2)) := by
  rw [List.zip, List.map_zipWith]

theorem map_ranges (l : List (Int × Int)) : l.map (fun p : Int × Int => Slice.range p.1 (p.1 + p.2)) =
    (l.map fun p => (p.1, p.1 + p.2)).map (fun p : Int × Int => Slice.range p.1 p.2) := by simp

theorem dot_add_sub (str : List Nat) (org lo i : List Int) (h1 : str.length = org.length) (h2 : lo.length = org.length)
    (h3 : i.length = org.length) :
    dot str (List.zipWith (fun (a b : Int) => a - b) lo org) + dot str (List.zipWith (fun (a b : Int) => a - b) i lo) =
      dot str (List.zipWith (fun (a b : Int) => a - b) i org) := by
  induction str generalizing org lo i with
  | nil => simp [dot]
  | cons s str ih =>
    cases org with
    | nil => simp at h1
    | cons o org =>
      cases lo with
      | nil => simp at h2
      | cons l lo =>
        cases i with
        | nil => simp at h3
        | cons a i =>
          simp only [List.zipWith_cons_cons, dot_cons]
          rw [← ih org lo i (by simpa using h1) (by simpa using h2) (by simpa using h3)]
          ring

theorem origins_ranges (as ws : List Int) (h : as.length = ws.length) :
    (List.zipWith (fun (a : Int) (w : Int) => Slice.range a (a + w)) as ws).map Slice.origin = as := by
  induction as generalizing ws with
  | nil => simp
  | cons a as ih =>
    cases ws with
    | nil => simp at h
    | cons w ws => simp only [List.zipWith_cons_cons, List.map_cons, Slice.origin]; rw [ih ws (by simpa using h)]

/-- Strides, origin, layout and addresses of a sub-view. -/
theorem subview_facts (v : StView) (lo up : List Int) (h1 : v.mds.str.length = v.org.length) (h2 : lo.length = v.org.length)
    (h3 : up.length = v.org.length) :
    (v.subview lo up).mds.str = v.mds.str ∧ (v.subview lo up).org = lo ∧ (v.subview lo up).mds.layout = .stride ∧
    (v.subview lo up).mds.base = v.addr lo ∧ (∀ i : List Int, i.length = v.org.length → (v.subview lo up).addr i = v.addr i) := by
  have hstr : (v.subview lo up).mds.str = v.mds.str := by
    simp only [StView.subview, MdSpan.subspan]
    rw [zipWith_ranges, map_ranges]
    exact sliceStrides_ranges _ _ (by simp [h1, h2, h3])
  have hbase : (v.subview lo up).mds.base = v.addr lo := by
    simp only [StView.subview, MdSpan.subspan]
    rw [origins_ranges _ _ (by simp [h2, h3])]
    rfl
  refine ⟨hstr, rfl, rfl, hbase, fun i hi => ?_⟩
  have : (v.subview lo up).addr i = (v.subview lo up).mds.base +
      dot (v.subview lo up).mds.str (List.zipWith (fun (a b : Int) => a - b) i lo) := rfl
  rw [this, hstr, hbase]
  simp only [StView.addr, MdSpan.addr]
  rw [← dot_add_sub v.mds.str v.org lo i h1 h2 hi]
  ring

/-- The extents of a sub-view for a box whose sides are positive, with the possible exception of the last one. -/
theorem sliceExtents_ranges (ext : List Nat) (as : List Int) (ws : List Nat) (n : Nat) (a : Int) (hw : ∀ w ∈ ws, 0 < w)
    (h1 : ext.length = ws.length + 1) (h2 : as.length = ws.length) :
    sliceExtents ext (List.zipWith (fun (a : Int) (w : Int) => Slice.range a (a + w)) (as ++ [a]) (ws.map (fun w : Nat => (w : Int)) ++ [(n : Int)])) =
      ws ++ [n] := by
  have hdyn : ∀ (ext : List Nat) (as : List Int) (ws : List Nat), ext.length = ws.length → as.length = ws.length →
      List.zipWith Slice.dynLength ext (List.zipWith (fun (a : Int) (w : Int) => Slice.range a (a + w)) as (ws.map (fun w : Nat => (w : Int)))) =
        ws.map (fun w : Nat => (w : Int)) := by
    intro ext
    induction ext with
    | nil => intro as ws h _; have : ws = [] := List.length_eq_zero_iff.1 (by simpa using h.symm); subst this; simp
    | cons e es ih =>
      intro as ws h1 h2
      cases ws with
      | nil => simp at h1
      | cons w ws =>
        cases as with
        | nil => simp at h2
        | cons a as =>
          simp only [List.map_cons, List.zipWith_cons_cons]
          rw [ih as ws (by simpa using h1) (by simpa using h2)]
          simp [Slice.dynLength, Slice.mapToLength]
  have hmap : ws.map (fun w : Nat => (w : Int)) ++ [(n : Int)] = (ws ++ [n]).map (fun w : Nat => (w : Int)) := by simp
  have hpos : ((ws.map (fun w : Nat => (w : Int))).filter (fun l => decide (0 < l))).map Int.toNat = ws := by
    rw [List.filter_eq_self.2 (by simpa using hw)]
    rw [List.map_map]
    conv_rhs => rw [← List.map_id ws]
    exact List.map_congr_left fun w _ => by simp
  have hrank : sliceRank (List.zipWith (fun (a : Int) (w : Int) => Slice.range a (a + w)) (as ++ [a])
      ((ws ++ [n]).map (fun w : Nat => (w : Int)))) = ws.length + 1 := by
    rw [zipWith_ranges, sliceRank, List.filter_eq_self.2 (fun s hs => by
      obtain ⟨p, _, rfl⟩ := List.mem_map.1 hs
      rfl)]
    simp [h2]
  rw [hmap]
  simp only [sliceExtents]
  rw [hdyn ext (as ++ [a]) (ws ++ [n]) (by simpa using h1) (by simpa using h2), hrank]
  rw [List.map_append, List.filter_append, List.map_append, hpos]
  by_cases hn : 0 < n
  · simp [hn]
  · have : n = 0 := by omega
    subst this
    simp

end Fub
