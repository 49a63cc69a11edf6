import Verif.Lemmas.States
import Mathlib.Data.List.ProdSigma

namespace Fub

/-! ### C154: views of states -/

theorem makeView_wf (data : Int) (lo : List Int) (len : List Nat) (nComp rank : Nat) (hl : lo.length = len.length) (hr : rank ≤ len.length)
    (c : Nat) (ds : List VarDepth) :
    ∀ v ∈ makeView len.length rank (fabView data lo len nComp) c ds, VarWF rank (stridesLeft (len.take rank)) (lo.take rank) v := by
  have hext : (len ++ [nComp]).take rank = len.take rank := List.take_append_of_le_length hr
  have horg : (lo ++ [0]).take rank = lo.take rank := List.take_append_of_le_length (by omega)
  induction ds generalizing c with
  | nil => simp [makeView]
  | cons d ds ih =>
    intro v hv
    rw [makeView, List.mem_cons] at hv
    rcases hv with rfl | hv
    · cases d with
      | scalar =>
        simp only [makeVar, VarWF, MdSpan.mkLeft, fabView, hext, horg]
        simp [stridesLeft_length, hl, hr]
      | vector n =>
        simp only [makeVar, VarWF, MdSpan.mkLeft, fabView, hext, horg, stridesLeft_snoc]
        simp [stridesLeft_length, hl, hr]
    · exact ih _ v hv

theorem makeView_aux (data : Int) (lo : List Int) (len : List Nat) (nComp rank : Nat) (hl : lo.length = len.length) (hr : rank ≤ len.length)
    (i : List Int) (hi : i.length = rank) (c : Nat) (ds : List VarDepth)
    (hrest : (len.drop rank).prod = 1 ∨ ∀ d ∈ ds, d = VarDepth.scalar) :
    (stComponents rank (makeView len.length rank (fabView data lo len nComp) c ds)).map (fun v => v.addr i) =
      (List.range (totalComponents ds)).map fun k : Nat => fabAddress data lo len (c + k) (fabCell rank lo i) := by
  have hext : (len ++ [nComp]).take rank = len.take rank := List.take_append_of_le_length hr
  have horg : (lo ++ [0]).take rank = lo.take rank := List.take_append_of_le_length (by omega)
  have hwf := makeView_wf data lo len nComp rank hl hr
  induction ds generalizing c with
  | nil => simp [makeView, stComponents, totalComponents]
  | cons d ds ih =>
    have ih' := ih (c + d.count) (hrest.imp_right fun h x hx => h x (by simp [hx]))
    simp only [stComponents] at ih'
    have htot : totalComponents (d :: ds) = d.count + totalComponents ds := by simp [totalComponents]
    have hsplit : (List.range (totalComponents (d :: ds))).map (fun k : Nat => fabAddress data lo len (c + k) (fabCell rank lo i)) =
        (List.range d.count).map (fun k : Nat => fabAddress data lo len (c + k) (fabCell rank lo i)) ++
        (List.range (totalComponents ds)).map (fun k : Nat => fabAddress data lo len (c + d.count + k) (fabCell rank lo i)) := by
      rw [htot, List.range_add, List.map_append, List.map_map]
      congr 1
      refine List.map_congr_left fun k _ => ?_
      simp only [Function.comp_apply, Nat.add_assoc]
    rw [makeView, stComponents, List.flatMap_cons, List.map_append, ih', hsplit]
    congr 1
    cases d with
    | scalar =>
      simp only [makeVar, varComponents, VarDepth.count, List.map_cons, List.map_nil, List.range_one, Nat.add_zero]
      rw [fab_base]
      simp only [fabAddress, StView.addr, MdSpan.mkLeft, MdSpan.addr, fabView, hext, horg]
      rw [cellNumber_fabCell rank lo len i hi (by omega)]
    | vector n =>
      have hv := hwf c (.vector n :: ds) (makeVar len.length rank (fabView data lo len nComp) c (.vector n)) (by simp [makeView])
      have hprod : (len.take rank).prod = len.prod := by
        rcases hrest with h | h
        · conv_rhs => rw [← List.take_append_drop rank len, List.prod_append, h, mul_one]
        · have := h (.vector n) (by simp)
          simp at this
      simp only [makeVar] at hv ⊢
      simp only [varComponents, VarDepth.count]
      have hn : (MdSpan.mkLeft ((fabView data lo len nComp).mds.addr (List.replicate len.length 0 ++ [(c : Int)]))
          ((fabView data lo len nComp).mds.ext.take rank ++ [n])).ext.getD rank 0 = n := by
        simp only [MdSpan.mkLeft, fabView, hext]
        rw [List.getD_append_right _ _ _ _ (by simp [hr])]
        simp [hr]
      rw [hn, List.map_map]
      refine List.map_congr_left fun k _ => ?_
      rw [Function.comp_apply, (atComponent_addr rank _ _ _ hv k i).1]
      have hs : (MdSpan.mkLeft ((fabView data lo len nComp).mds.addr (List.replicate len.length 0 ++ [(c : Int)]))
          ((fabView data lo len nComp).mds.ext.take rank ++ [n])).str.getD rank 0 = (len.take rank).prod := by
        simp only [MdSpan.mkLeft, fabView, hext, stridesLeft_snoc]
        rw [List.getD_append_right _ _ _ _ (by simp [hr, stridesLeft_length])]
        simp [hr, stridesLeft_length]
      dsimp only
      rw [hs, hprod, fabAddress, cellNumber_fabCell rank lo len i hi (by omega)]
      have hb : (MdSpan.mkLeft ((fabView data lo len nComp).mds.addr (List.replicate len.length 0 ++ [(c : Int)]))
          ((fabView data lo len nComp).mds.ext.take rank ++ [n])).base = data + (c : Int) * (len.prod : Nat) := by
        rw [← fab_base data lo len nComp c]; rfl
      rw [hb]
      push_cast
      ring

/-- **C154 (components).** The view of the states of a Fab has one view for each component of the variables, and the `k`-th one reads and
writes component `k` of the Fab at the same cell, for any number of scalar and vector variables. An equation with fewer dimensions than
AMReX sees the lowest cells in the other directions; if it has vector variables, then the Fab must have only one cell there, see
`vector_views_wrong`. -/
theorem view_components (data : Int) (lo : List Int) (len : List Nat) (nComp rank : Nat) (hl : lo.length = len.length)
    (hr : rank ≤ len.length) (ds : List VarDepth) (hrest : (len.drop rank).prod = 1 ∨ ∀ d ∈ ds, d = VarDepth.scalar) (i : List Int)
    (hi : i.length = rank) :
    (stComponents rank (makeView len.length rank (fabView data lo len nComp) 0 ds)).map (fun v => v.addr i) =
      (List.range (totalComponents ds)).map fun k : Nat => fabAddress data lo len k (fabCell rank lo i) := by
  have := makeView_aux data lo len nComp rank hl hr i hi 0 ds hrest
  simpa using this

theorem fabAddress_inj (data : Int) (lo : List Int) (len : List Nat) (k k' : Nat) (c c' : List Int)
    (hc : CellIn lo len c) (hc' : CellIn lo len c') (h : fabAddress data lo len k c = fabAddress data lo len k' c') : k = k' ∧ c = c' := by
  obtain ⟨hc, hcl⟩ := hc
  obtain ⟨hc', hcl'⟩ := hc'
  obtain ⟨hb, hinj, _⟩ := mapLeft_bijective len
  simp only [fabAddress, cellNumber_eq] at h
  obtain ⟨b1, b2⟩ := hb _ hc
  obtain ⟨b1', b2'⟩ := hb _ hc'
  have h2 : mapLeft len (List.zipWith (fun (a b : Int) => a - b) c lo) + (len.prod : Nat) * (k : Int) =
      mapLeft len (List.zipWith (fun (a b : Int) => a - b) c' lo) + (len.prod : Nat) * (k' : Int) := by linarith
  obtain ⟨e1, e2⟩ := radix_inj b1 b2 b1' b2' h2
  refine ⟨by exact_mod_cast e2, ?_⟩
  have e := hinj _ _ hc hc' e1
  have back : ∀ (c lo : List Int), c.length = lo.length → List.zipWith (fun (a b : Int) => a + b)
      (List.zipWith (fun (a b : Int) => a - b) c lo) lo = c := by
    intro c
    induction c with
    | nil => intro lo h; simp
    | cons a c ih =>
      intro lo h
      cases lo with
      | nil => simp at h
      | cons b lo =>
        simp only [List.zipWith_cons_cons]
        rw [ih lo (by simpa using h)]
        simp
  rw [← back c lo hcl, ← back c' lo hcl', e]

theorem fabCell_in (rank : Nat) (lo : List Int) (len : List Nat) (i : List Int) (hl : lo.length = len.length) (hr : rank ≤ len.length)
    (hi : CellIn (lo.take rank) (len.take rank) i) (hpos : ∀ n ∈ len.drop rank, 0 < n) : CellIn lo len (fabCell rank lo i) := by
  obtain ⟨h, hil⟩ := hi
  have hil' : i.length = rank := by rw [hil]; simp; omega
  refine ⟨?_, by simp [fabCell, hil']; omega⟩
  have hz : List.zipWith (fun (a b : Int) => a - b) (fabCell rank lo i) lo =
      List.zipWith (fun (a b : Int) => a - b) i (lo.take rank) ++ List.zipWith (fun (a b : Int) => a - b) (lo.drop rank) (lo.drop rank) := by
    rw [fabCell, ← List.zipWith_append (by rw [hil]), List.take_append_drop]
  have happ : ∀ (l1 l2 : List Nat) (i1 i2 : List Int), InRange l1 i1 → InRange l2 i2 → InRange (l1 ++ l2) (i1 ++ i2) := by
    intro l1 l2 i1 i2 h1 h2
    induction h1 with
    | nil => exact h2
    | cons h _ ih => exact .cons h ih
  have hlow : ∀ (l : List Int) (n : List Nat), l.length = n.length → (∀ x ∈ n, 0 < x) →
      InRange n (List.zipWith (fun (a b : Int) => a - b) l l) := by
    intro l n
    induction n generalizing l with
    | nil => intro h _; have : l = [] := List.length_eq_zero_iff.1 (by simpa using h); subst this; exact .nil
    | cons a n ih =>
      intro h hp
      cases l with
      | nil => simp at h
      | cons b l =>
        refine .cons ?_ (ih l (by simpa using h) (fun x hx => hp x (by simp [hx])))
        have := hp a (by simp)
        change 0 ≤ b - b ∧ b - b < (a : Int)
        omega
  have := happ _ _ _ _ h (hlow (lo.drop rank) (len.drop rank) (by simp [hl]) hpos)
  rw [List.take_append_drop] at this
  rw [hz]
  exact this

section
variable {K : Type}

/-- **C154 (storing and loading).** Storing a state in a cell and loading the cell gives the state back; the states of all other cells and
everything outside the components of the cell stay as they are. -/
theorem state_store_load (mem : Int → K) (data : Int) (lo : List Int) (len : List Nat) (nComp rank : Nat) (hl : lo.length = len.length)
    (hr : rank ≤ len.length) (hpos : ∀ n ∈ len.drop rank, 0 < n) (ds : List VarDepth)
    (hrest : (len.drop rank).prod = 1 ∨ ∀ d ∈ ds, d = VarDepth.scalar) (comps : List StView)
    (hcomps : comps = stComponents rank (makeView len.length rank (fabView data lo len nComp) 0 ds)) (s : List K)
    (hs : s.length = totalComponents ds) (i : List Int) (hi : CellIn (lo.take rank) (len.take rank) i) :
    stLoad (stStore mem comps s i) comps i = s ∧
    (∀ j, CellIn (lo.take rank) (len.take rank) j → j ≠ i → stLoad (stStore mem comps s i) comps j = stLoad mem comps j) ∧
    (∀ a, (∀ k < totalComponents ds, a ≠ fabAddress data lo len k (fabCell rank lo i)) → stStore mem comps s i a = mem a) := by
  have hlen : ∀ j : List Int, CellIn (lo.take rank) (len.take rank) j → j.length = rank := fun j hj => by rw [hj.2]; simp; omega
  have haddr : ∀ j : List Int, CellIn (lo.take rank) (len.take rank) j → comps.map (fun v => v.addr j) =
      (List.range (totalComponents ds)).map fun k : Nat => fabAddress data lo len k (fabCell rank lo j) := fun j hj => by
    rw [hcomps]; exact view_components data lo len nComp rank hl hr ds hrest j (hlen j hj)
  have hin := fun j hj => fabCell_in rank lo len j hl hr hj hpos
  have hload : ∀ (m : Int → K) (j : List Int), stLoad m comps j = (comps.map (fun v => v.addr j)).map m := fun m j => by simp [stLoad]
  have hother : ∀ a, (∀ k < totalComponents ds, a ≠ fabAddress data lo len k (fabCell rank lo i)) → stStore mem comps s i a = mem a := by
    intro a ha
    refine memWrites_other _ _ _ fun w hw => ?_
    have hw1 := (List.of_mem_zip hw).1
    rw [haddr i hi] at hw1
    obtain ⟨k, hk, hw1⟩ := List.mem_map.1 hw1
    rw [← hw1]
    exact (ha k (List.mem_range.1 hk)).symm
  refine ⟨?_, ?_, hother⟩
  · rw [hload, stStore]
    refine memWrites_zip _ _ _ ?_ ?_
    · rw [haddr i hi]; simp [hs]
    · rw [haddr i hi]
      refine List.Nodup.map_on (fun k _ k' _ h => ?_) List.nodup_range
      exact (fabAddress_inj data lo len k k' _ _ (hin i hi) (hin i hi) h).1
  · intro j hj hne
    rw [hload, hload]
    refine List.map_congr_left fun a ha => hother a fun k hk he => ?_
    rw [haddr j hj] at ha
    obtain ⟨k', _, ha⟩ := List.mem_map.1 ha
    rw [← ha] at he
    have hcell := (fabAddress_inj data lo len k' k _ _ (hin j hj) (hin i hi) he).2
    simp only [fabCell] at hcell
    exact hne (List.append_cancel_right hcell)

end

/-- Two variables, a scalar and a vector with two components, on a box of 3x2 cells: the views address the components 0, 1 and 2. -/
example : (stComponents 2 (makeView 2 2 (fabView 100 [-1, 4] [3, 2] 4) 0 [.scalar, .vector 2])).map (fun v => v.addr [0, 5]) = [104, 110, 116] ∧
    CellIn [-1, 4] [3, 2] [0, 5] := by
  refine ⟨by decide +kernel, ?_, by decide⟩
  exact .cons (by decide) (.cons (by decide) .nil)

/-- The hypotheses are met, and storing really changes the three values of the cell. -/
example : (stLoad (stStore (fun _ : Int => (0 : ℤ)) (stComponents 2 (makeView 2 2 (fabView 100 [-1, 4] [3, 2] 4) 0 [.scalar, .vector 2]))
    [7, 8, 9] [0, 5]) (stComponents 2 (makeView 2 2 (fabView 100 [-1, 4] [3, 2] 4) 0 [.scalar, .vector 2])) [0, 5]) = [7, 8, 9] := by
  decide +kernel

/-- **C155 (fewer dimensions).** For an equation with fewer dimensions than AMReX the view of a vector variable is wrong if the Fab has more
than one cell in another direction: in a Fab of 3x2 cells the second component of the vector, component 2 of the Fab, is read where
component 1 is. -/
theorem vector_views_wrong :
    (stComponents 1 (makeView 2 1 (fabView 0 [0, 0] [3, 2] 3) 0 [.scalar, .vector 2])).map (fun v => v.addr [1]) = [1, 7, 10] ∧
    fabAddress 0 [0, 0] [3, 2] 2 (fabCell 1 [0, 0] [1]) = 13 ∧ fabAddress 0 [0, 0] [3, 2] 1 [1, 1] = 10 := by
  decide +kernel

/-! ### Sub-views, pointers and lanes -/

/-- **C154 (sub-views).** Restricting a view to a box that is not empty keeps all components, and every cell is the same cell as before. -/
theorem subview_components (rank : Nat) (str : List Nat) (org : List Int) (vars : List StVar) (hwf : ∀ v ∈ vars, VarWF rank str org v)
    (lo up : List Int) (hlo : lo.length = rank) (hup : up.length = rank) (hpos : ∀ w ∈ List.zipWith (fun (a b : Int) => a - b) up lo, 0 < w) :
    (∀ v ∈ vars.map (varSubview rank lo up), VarWF rank str lo v) ∧
    ∀ i : List Int, i.length = rank → (stComponents rank (vars.map (varSubview rank lo up))).map (fun v => v.addr i) =
      (stComponents rank vars).map (fun v => v.addr i) := by
  have hws : ∃ ws : List Nat, (∀ w ∈ ws, 0 < w) ∧ List.zipWith (fun (a b : Int) => a - b) up lo = ws.map (fun w : Nat => (w : Int)) ∧
      ws.length = rank := by
    refine ⟨(List.zipWith (fun (a b : Int) => a - b) up lo).map Int.toNat, ?_, ?_, by simp [hlo, hup]⟩
    · intro w hw
      obtain ⟨z, hz, rfl⟩ := List.mem_map.1 hw
      have := hpos z hz
      omega
    · rw [List.map_map]
      conv_lhs => rw [← List.map_id (List.zipWith (fun (a b : Int) => a - b) up lo)]
      refine List.map_congr_left fun z hz => ?_
      have := hpos z hz
      simp only [Function.comp_apply, id_eq]
      omega
  obtain ⟨ws, hw0, hwe, hwl⟩ := hws
  have one : ∀ v, VarWF rank str org v → VarWF rank str lo (varSubview rank lo up v) ∧
      ∀ i : List Int, i.length = rank → (varComponents rank (varSubview rank lo up v)).map (fun v => v.addr i) =
        (varComponents rank v).map (fun v => v.addr i) := by
    intro v hv
    cases v with
    | scalar v =>
      obtain ⟨h1, h2, h3, h4⟩ := hv
      obtain ⟨f1, f2, _, _, f5⟩ := subview_facts v lo up (by rw [h1, h2, h3, h4]) (by rw [h2, h4, hlo]) (by rw [h2, h4, hup])
      refine ⟨⟨by rw [f1, h1], f2, h3, hlo⟩, fun i hi => ?_⟩
      simp only [varSubview, varComponents, List.map_cons, List.map_nil]
      rw [f5 i (by rw [h2, h4, hi])]
    | vector v =>
      have hv0 := hv
      obtain ⟨⟨c, o, h1, h2⟩, h3, h4, h5, h6⟩ := hv
      have hvo : v.org.length = rank + 1 := by rw [h2]; simp [h4]
      have ho : v.org.getD rank 0 = o := by rw [h2, ← h4]; simp
      generalize hn : v.mds.ext.getD rank 0 = n
      obtain ⟨f1, f2, f3, f4, f5⟩ := subview_facts v (lo ++ [o]) (up ++ [o + (n : Int)]) (by rw [h1, hvo]; simp [h3]) (by rw [hvo]; simp [hlo])
        (by rw [hvo]; simp [hup])
      have hsub : varSubview rank lo up (.vector v) = .vector (v.subview (lo ++ [o]) (up ++ [o + (n : Int)])) := by
        simp only [varSubview]; rw [ho, hn]
      have hext : (v.subview (lo ++ [o]) (up ++ [o + (n : Int)])).mds.ext = ws ++ [n] := by
        simp only [StView.subview, MdSpan.subspan]
        have e1 : List.zipWith (fun (a b : Int) => a - b) (up ++ [o + (n : Int)]) (lo ++ [o]) =
            ws.map (fun w : Nat => (w : Int)) ++ [(n : Int)] := by
          rw [List.zipWith_append (by rw [hup, hlo]), hwe]; simp
        have e2 : List.zipWith (fun (a b : Int) => a - b) (lo ++ [o]) v.org =
            List.zipWith (fun (a b : Int) => a - b) lo org ++ [0] := by
          rw [h2, List.zipWith_append (by rw [hlo, h4])]; simp
        rw [e1, e2]
        exact sliceExtents_ranges _ _ _ _ _ hw0 (by rw [h5, hwl]) (by simp [hlo, h4, hwl])
      have hwf' : VarWF rank str lo (varSubview rank lo up (.vector v)) := by
        rw [hsub]
        refine ⟨⟨c, o, by rw [f1, h1], f2⟩, h3, hlo, by rw [hext]; simp [hwl], fun h => ?_⟩
        rw [f3] at h; cases h
      refine ⟨hwf', fun i hi => ?_⟩
      rw [hsub] at hwf' ⊢
      simp only [varComponents]
      have hn' : (v.subview (lo ++ [o]) (up ++ [o + (n : Int)])).mds.ext.getD rank 0 = n := by rw [hext, ← hwl]; simp
      rw [hn', hn, List.map_map, List.map_map]
      refine List.map_congr_left fun k _ => ?_
      simp only [Function.comp_apply]
      rw [(atComponent_addr rank str lo _ hwf' k i).1, (atComponent_addr rank str org _ hv0 k i).1, f4, f1]
      have : v.addr (lo ++ [o]) = v.mds.base + dot str (List.zipWith (fun (a b : Int) => a - b) lo org) := by
        simp only [StView.addr, MdSpan.addr]
        rw [h1, h2, List.zipWith_append (by rw [hlo, h4])]
        simp only [List.zipWith_cons_cons, List.zipWith_nil_left, sub_self]
        rw [dot_snoc _ _ _ _ (by simp [h3, hlo, h4])]
        simp
      rw [this, ← dot_add_sub str org lo i (by rw [h3, h4]) (by rw [hlo, h4]) (by rw [hi, h4])]
      ring
  constructor
  · intro v hv
    obtain ⟨w, hw, rfl⟩ := List.mem_map.1 hv
    exact (one w (hwf w hw)).1
  · intro i hi
    induction vars with
    | nil => rfl
    | cons v vars ih =>
      have hv := (one v (hwf v (by simp))).2 i hi
      have ih' := ih fun w hw => hwf w (by simp [hw])
      simp only [stComponents] at ih' ⊢
      rw [List.map_cons, List.flatMap_cons, List.map_append, hv, ih', List.flatMap_cons, List.map_append]

theorem ptrLoop_eq (s n : Nat) (p : Int) : ptrLoop s n p = (List.range n).map fun k : Nat => p + (s : Int) * (k : Int) := by
  induction n generalizing p with
  | zero => rfl
  | succ n ih =>
    rw [ptrLoop, ih, List.range_succ_eq_map, List.map_cons, List.map_map]
    congr 1
    · simp
    · refine List.map_congr_left fun k _ => ?_
      simp only [Function.comp_apply, Nat.succ_eq_add_one]
      push_cast
      ring

/-- **C154 (pointers).** The pointer to the first cell of a view, advanced by the strides of the cells, points to the components of the cell
with that offset: all variables have the same strides, and the pointers of the components of a vector are those of its component views. -/
theorem pointer_components (rank : Nat) (str : List Nat) (org : List Int) (vars : List StVar) (hwf : ∀ v ∈ vars, VarWF rank str org v)
    (off : List Int) (hoff : off.length = rank) :
    stPointers (vars.map fun v => (varBegin rank v).advance (dot str off)) =
      (stComponents rank vars).map (fun v => v.addr (List.zipWith (fun (a b : Int) => a + b) org off)) := by
  have hback : ∀ (org off : List Int), off.length = org.length →
      List.zipWith (fun (a b : Int) => a - b) (List.zipWith (fun (a b : Int) => a + b) org off) org = off := by
    intro org
    induction org with
    | nil => intro off h; have : off = [] := List.length_eq_zero_iff.1 (by simpa using h); subst this; rfl
    | cons a org ih =>
      intro off h
      cases off with
      | nil => simp at h
      | cons b off =>
        simp only [List.zipWith_cons_cons]
        rw [ih off (by simpa using h)]
        simp
  induction vars with
  | nil => rfl
  | cons v vars ih =>
    have ih' := ih fun w hw => hwf w (by simp [hw])
    simp only [stPointers, stComponents] at ih' ⊢
    rw [List.map_cons, List.flatMap_cons, ih', List.flatMap_cons, List.map_append]
    congr 1
    have hv := hwf v (by simp)
    cases v with
    | scalar v =>
      obtain ⟨h1, h2, h3, h4⟩ := hv
      simp only [varBegin, StPtr.advance, StPtr.pointers, varComponents, List.map_cons, List.map_nil, StView.addr, MdSpan.addr]
      rw [h1, h2, hback _ _ (by rw [hoff, h4])]
    | vector v =>
      have h4 := hv.2.2.1
      simp only [varBegin, StPtr.advance, StPtr.pointers, varComponents]
      rw [ptrLoop_eq, List.map_map]
      refine List.map_congr_left fun k _ => ?_
      rw [Function.comp_apply, (atComponent_addr rank str org v hv k _).1, hback _ _ (by rw [hoff, h4])]
      ring

theorem component_shape (rank : Nat) (str : List Nat) (org : List Int) (vars : List StVar) (hwf : ∀ v ∈ vars, VarWF rank str org v) :
    ∀ v ∈ stComponents rank vars, v.mds.str = str ∧ v.org = org := by
  intro v hv
  obtain ⟨w, hw, hv⟩ := List.mem_flatMap.1 hv
  have h := hwf w hw
  cases w with
  | scalar w =>
    simp only [varComponents, List.mem_singleton] at hv
    subst hv
    exact ⟨h.1, h.2.1⟩
  | vector w =>
    obtain ⟨k, _, rfl⟩ := List.mem_map.1 hv
    exact (atComponent_addr rank str org w h k []).2

theorem addr_shiftX (v : StView) (s : Nat) (str : List Nat) (hs : v.mds.str = s :: str) (i : List Int) (hi : i.length = v.org.length)
    (hne : i ≠ []) (l : Int) : v.addr (shiftX i l) = v.addr i + l * (s : Int) := by
  cases i with
  | nil => exact absurd rfl hne
  | cons a i =>
    cases ho : v.org with
    | nil => rw [ho] at hi; simp at hi
    | cons o org =>
      simp only [StView.addr, MdSpan.addr, shiftX, ho, hs, List.zipWith_cons_cons, dot_cons]
      ring

section
variable {K : Type}

/-- **C154 (lanes).** Lane `l` of an array of states loaded at a cell is the state of the cell `l` cells further in the first direction, for
views with any strides. -/
theorem array_load_lanes (mem : Int → K) (N rank : Nat) (str : List Nat) (org : List Int) (vars : List StVar)
    (hwf : ∀ v ∈ vars, VarWF (rank + 1) str org v) (i : List Int) (hi : i.length = rank + 1) (l : Nat) (hl : l < N) :
    stLane (stLoadArray mem N (stComponents (rank + 1) vars) i) l =
      (stLoad mem (stComponents (rank + 1) vars) (shiftX i l)).map some := by
  have hshape := component_shape (rank + 1) str org vars hwf
  simp only [stLane, stLoadArray, stLoad, List.map_map]
  refine List.map_congr_left fun v hv => ?_
  obtain ⟨h1, h2⟩ := hshape v hv
  have hlen : str.length = rank + 1 ∧ org.length = rank + 1 := by
    obtain ⟨w, hw, _⟩ := List.mem_flatMap.1 hv
    have h := hwf w hw
    cases w with
    | scalar w => exact ⟨h.2.2.1, h.2.2.2⟩
    | vector w => exact ⟨h.2.1, h.2.2.1⟩
  cases str with
  | nil => simp at hlen
  | cons s str =>
    simp only [Function.comp_apply, laneAddrs, List.map_map]
    rw [List.getElem?_map, List.getElem?_range hl, Option.map_some, Function.comp_apply, h1]
    rw [addr_shiftX v s str h1 i (by rw [hi, h2, hlen.2]) (by rintro rfl; simp at hi)]
    simp

theorem loadLanes_spec (mem : Int → K) (n : Nat) (p : Int) (x : List K) (l : Nat) :
    (loadLanes mem n p x)[l]? = if l < n then (if l < x.length then some (mem (p + (l : Int))) else none) else x[l]? := by
  have hlen : ∀ n, (loadLanes mem n p x).length = x.length := by
    intro n
    induction n with
    | zero => rfl
    | succ n ih => rw [loadLanes, List.range_succ, List.foldl_append, ← loadLanes]; simp [ih]
  induction n with
  | zero => simp [loadLanes]
  | succ n ih =>
    have hstep : loadLanes mem (n + 1) p x = (loadLanes mem n p x).set n (mem (p + (n : Int))) := by
      rw [loadLanes, List.range_succ, List.foldl_append]; rfl
    rw [hstep, List.getElem?_set, ih, hlen]
    by_cases h : n = l
    · subst h; simp
    · simp only [h, if_false]
      by_cases h2 : l < n
      · simp [h2, Nat.lt_succ_of_lt h2]
      · have : ¬ l < n + 1 := by omega
        simp [h2, this]

/-- **C154 (remainder of a row, loading).** Loading `n` lanes reads the `n` cells at the pointers and leaves the other lanes as they were. -/
theorem loadN_lanes (mem : Int → K) (ps : List StPtr) (n N : Nat) (hn : n ≤ N) (states : List (List K))
    (hs : states.length = (stPointers ps).length) (hN : ∀ x ∈ states, x.length = N) (l : Nat) :
    stLane (stLoadN mem ps n states) l =
      if l < n then (stPointers ps).map (fun p => some (mem (p + (l : Int)))) else stLane states l := by
  simp only [stLane, stLoadN]
  generalize stPointers ps = qs at *
  have : ∀ (qs : List Int) (states : List (List K)), states.length = qs.length → (∀ x ∈ states, x.length = N) →
      (List.zipWith (loadLanes mem n) qs states).map (fun xs => xs[l]?) =
      if l < n then qs.map (fun p => some (mem (p + (l : Int)))) else states.map (fun xs => xs[l]?) := by
    intro qs
    induction qs with
    | nil => intro states h _; have : states = [] := List.length_eq_zero_iff.1 (by simpa using h); subst this; simp
    | cons q qs ih =>
      intro states h hN
      cases states with
      | nil => simp at h
      | cons x states =>
        have := ih states (by simpa using h) (fun y hy => hN y (by simp [hy]))
        simp only [List.zipWith_cons_cons, List.map_cons]
        rw [this, loadLanes_spec]
        have hx := hN x (by simp)
        by_cases hl : l < n
        · have : l < x.length := by omega
          simp [hl, this]
        · simp [hl]
  exact this qs states hs hN

/-- **C154 (remainder of a row, storing).** Storing `n` lanes at the pointers of the cell `i` stores lane `l` as the state of the cell `l`
cells further, for all `l < n`, and changes nothing else. -/
theorem storeN_lanes (mem : Int → K) (data : Int) (lo : List Int) (len : List Nat) (m rank : Nat)
    (ps : List StPtr) (i : List Int)
    (hps : stPointers ps = (List.range m).map fun k : Nat => fabAddress data lo len k (fabCell rank lo i))
    (n N : Nat) (hn : n ≤ N) (states : List (List K)) (hs : states.length = m) (hN : ∀ x ∈ states, x.length = N)
    (hne : i ≠ []) (hl0 : lo ≠ [])  (hlen : len ≠ [])
    (hin : ∀ l < n, CellIn lo len (fabCell rank lo (shiftX i (l : Int)))) :
    (∀ l < n, ((List.range m).map fun k : Nat => some (stStoreN mem ps n states (fabAddress data lo len k (fabCell rank lo (shiftX i (l : Int)))))) =
      stLane states l) ∧
    (∀ a, (∀ k < m, ∀ l < n, a ≠ fabAddress data lo len k (fabCell rank lo (shiftX i (l : Int)))) → stStoreN mem ps n states a = mem a) := by
  have hshift : ∀ (k : Nat) (l : Int), fabAddress data lo len k (fabCell rank lo (shiftX i l)) =
      fabAddress data lo len k (fabCell rank lo i) + l := by
    intro k l
    cases i with
    | nil => exact absurd rfl hne
    | cons a i =>
      cases lo with
      | nil => exact absurd rfl hl0
      | cons b lo =>
        cases len with
        | nil => exact absurd rfl hlen
        | cons e len =>
          simp only [fabAddress, fabCell, shiftX, List.cons_append, List.zipWith_cons_cons, cellNumber]
          ring
  let ws : List (Int × K) := ((stPointers ps).zip states).flatMap fun p => storeLanes n p.1 p.2
  have hmem : ∀ w : Int × K, w ∈ ws ↔ ∃ k, ∃ hk : k < m, ∃ l, ∃ hl : l < n,
      w = (fabAddress data lo len k (fabCell rank lo (shiftX i (l : Int))), (states[k]'(by omega))[l]'(by
        rw [hN _ (List.getElem_mem _)]; omega)) := by
    intro w
    simp only [ws, List.mem_flatMap, storeLanes]
    constructor
    · rintro ⟨q, hq, hw⟩
      obtain ⟨k, hk, rfl⟩ := List.mem_iff_getElem.1 hq
      have hk' : k < m := by rw [List.length_zip, hps] at hk; simp at hk; omega
      rw [List.getElem_zip] at hw
      obtain ⟨l, hl, rfl⟩ := List.mem_iff_getElem.1 hw
      have hl' : l < n := by rw [List.length_zip] at hl; simp at hl; omega
      refine ⟨k, hk', l, hl', ?_⟩
      rw [List.getElem_zip, hshift]
      simp [hps]
    · rintro ⟨k, hk, l, hl, rfl⟩
      refine ⟨((stPointers ps)[k]'(by rw [hps]; simpa using hk), states[k]'(by omega)), ?_, ?_⟩
      · rw [List.mem_iff_getElem]
        exact ⟨k, by rw [List.length_zip, hps]; simp; omega, by rw [List.getElem_zip]⟩
      · rw [List.mem_iff_getElem]
        have hx : (states[k]'(by omega)).length = N := hN _ (List.getElem_mem _)
        refine ⟨l, by rw [List.length_zip]; simp [hx]; omega, ?_⟩
        rw [List.getElem_zip, hshift]
        simp [hps]
  have hval : ∀ k (hk : k < m) l (hl : l < n), memWrites mem ws (fabAddress data lo len k (fabCell rank lo (shiftX i (l : Int)))) =
      (states[k]'(by omega))[l]'(by rw [hN _ (List.getElem_mem _)]; omega) := by
    intro k hk l hl
    have key : ∀ (ws' : List (Int × K)) (mem' : Int → K) (a : Int) (x : K), (∃ w ∈ ws', w.1 = a) → (∀ w ∈ ws', w.1 = a → w.2 = x) →
        memWrites mem' ws' a = x := by
      intro ws'
      induction ws' with
      | nil => rintro _ _ _ ⟨w, hw, _⟩; simp at hw
      | cons v ws' ih =>
        intro mem' a x hex hall
        rw [memWrites_cons]
        by_cases hr : ∃ w ∈ ws', w.1 = a
        · exact ih _ _ _ hr fun w hw => hall w (by simp [hw])
        · push Not at hr
          rw [memWrites_other _ _ _ hr]
          obtain ⟨w, hw, hwa⟩ := hex
          rcases List.mem_cons.1 hw with rfl | hw
          · rw [← hwa, Function.update_self]
            exact hall _ (by simp) hwa
          · exact absurd hwa (hr w hw)
    refine key ws mem _ _ ⟨_, (hmem _).2 ⟨k, hk, l, hl, rfl⟩, rfl⟩ ?_
    intro w hw hwa
    obtain ⟨k', hk', l', hl', rfl⟩ := (hmem w).1 hw
    obtain ⟨e1, e2⟩ := fabAddress_inj data lo len k' k _ _ (hin l' hl') (hin l hl) hwa
    have e3 : l' = l := by
      simp only [fabCell] at e2
      have e4 := List.append_cancel_right e2
      cases i with
      | nil => exact absurd rfl hne
      | cons a i =>
        simp only [shiftX, List.cons.injEq] at e4
        omega
    subst e1 e3
    rfl
  refine ⟨fun l hl => ?_, fun a ha => ?_⟩
  · apply List.ext_getElem
    · simp [stLane, hs]
    · intro k h1 h2
      have hk : k < m := by simpa using h1
      have hx : l < (states[k]'(by omega)).length := by rw [hN _ (List.getElem_mem _)]; omega
      simp only [stLane, List.getElem_map, List.getElem_range]
      rw [List.getElem?_eq_getElem hx]
      exact congrArg some (hval k hk l hl)
  · refine memWrites_other _ _ _ fun w hw => ?_
    obtain ⟨k, hk, l, hl, rfl⟩ := (hmem w).1 hw
    exact (ha k hk l hl).symm

end

/-- The hypotheses are met: the sub-view of the cells [0, 2) x [4, 6) of the example above, its second row, and two of four lanes. -/
example : let vars := makeView 2 2 (fabView 100 [-1, 4] [3, 2] 4) 0 [.scalar, .vector 2]
    let sub := vars.map (varSubview 2 [0, 4] [2, 6])
    stPointers (sub.map fun v => (varBegin 2 v).advance (dot [1, 3] [0, 1])) = [104, 110, 116] ∧
    (stComponents 2 sub).map (fun v => v.addr [0, 5]) = [104, 110, 116] ∧
    stLoadN (fun a : Int => a) (sub.map fun v => (varBegin 2 v).advance 3) 2 [[0, 0, 0, 0], [0, 0, 0, 0], [0, 0, 0, 0]] =
      [[104, 105, 0, 0], [110, 111, 0, 0], [116, 117, 0, 0]] := by
  decide +kernel

/-! ### C155: rows -/

/-- **C155 (length of a row, partial).** The loops over a row visit all its cells if the first variable is a scalar, which holds for all
equations of the library. -/
theorem row_count_partial (p : Int) (ps : List StPtr) (extent : Nat) : rowCount (.scalar p :: ps) extent = extent := by
  simp [rowCount]

/-- **C155 (length of a row).** If the first variable is a vector the loops run beyond the row, over the stride of the components: a row of
3 cells in a Fab with 12 cells would be treated as a row of 24 cells. -/
theorem row_count_vector : rowCount [.vector 0 12 2] 3 = 24 := by decide +kernel

/-- **C155 (components of a row).** A row keeps the pointers and strides but knows only two components of a vector, however many there are. -/
theorem row_components (extent : Nat) (p : Int) (s n : Nat) :
    (varComponents 1 (makeRowVar extent (.vector p s n))).length = 2 ∧
    varBegin 1 (makeRowVar extent (.vector p s n)) = .vector p s 2 := by
  simp [makeRowVar, varComponents, varBegin]

end Fub
