import Verif.Model.Reactor
import Mathlib.Algebra.Order.Field.Rat
import Mathlib.Tactic.NormNum
import Mathlib.Tactic.Linarith

/-!
# The textual composition of the reactor
-/

namespace Fub

section
variable {S K : Type*} [DecidableEq S] [Field K] [DecidableEq K]

/-- Specification: the text of a composition, `name: value, name: value, ...`. -/
def compositionText (name : S → List Char) (num : K → List Char) : List (S × K) → List Char
  | [] => []
  | [(i, v)] => name i ++ ':' :: ' ' :: num v
  | (i, v) :: e :: es => name i ++ ':' :: ' ' :: num v ++ ',' :: ' ' ::
      compositionText name num (e :: es)

/-- Specification: the value written for a species; zero for the others. -/
def entryValue (es : List (S × K)) (i : S) : K :=
  match es with
  | [] => 0
  | (j, v) :: es => if i = j then v else entryValue es i

omit [DecidableEq S] [Field K] [DecidableEq K] in
theorem takeWhile_append_stop {α : Type*} (p : α → Bool) (l r : List α) (x : α)
    (hl : ∀ c ∈ l, p c = true) (hx : p x = false) :
    (l ++ x :: r).takeWhile p = l ∧ (l ++ x :: r).dropWhile p = x :: r := by
  induction l with
  | nil => simp [List.takeWhile, List.dropWhile, hx]
  | cons a l ih =>
    have ha := hl a (by simp)
    have := ih (fun c hc => hl c (by simp [hc]))
    simp [List.takeWhile, List.dropWhile, ha, this]

theorem massLoop_text (reader : List Char → NumRead K) (find : List Char → Option S)
    (name : S → List Char) (num : K → List Char)
    (hname : ∀ i, find (name i) = some i) (hcolon : ∀ i, ':' ∉ name i)
    (hfirst : ∀ i, ∃ c cs, name i = c :: cs ∧ c ≠ ',' ∧ c ≠ ' ')
    (V : K → Prop) (hnum : ∀ v, V v → ∃ c cs, num v = c :: cs ∧ c.isWhitespace = false)
    (hread : ∀ v rest, V v → (rest = [] ∨ ∃ cs, rest = ',' :: cs) →
      reader (num v ++ rest) = ⟨v, rest, true⟩) :
    ∀ (es : List (S × K)) (fuel : ℕ) (Y : S → K) (sum : K), (∀ e ∈ es, V e.2) → es ≠ [] →
      es.length ≤ fuel →
      (es.map Prod.fst).Nodup → sum + (es.map Prod.snd).sum ≠ 0 →
      massLoop reader find fuel (compositionText name num es) Y sum =
        .done (fun i => (if i ∈ es.map Prod.fst then entryValue es i else Y i) /
          (sum + (es.map Prod.snd).sum)) := by
  intro es
  induction es with
  | nil => intro _ _ _ _ h; exact absurd rfl h
  | cons e es ih =>
    intro fuel Y sum hV _ hf hnd hs
    obtain ⟨i, v⟩ := e
    have hv : V v := hV (i, v) (by simp)
    cases fuel with
    | zero => simp at hf
    | succ fuel =>
      have hp : ∀ c ∈ name i, (decide (c ≠ ':')) = true := by
        intro c hc
        have : c ≠ ':' := fun h => hcolon i (h ▸ hc)
        simpa using this
      obtain ⟨c, cs, hc, hws⟩ := hnum v hv
      cases es with
      | nil =>
        have h1 := takeWhile_append_stop (fun c => decide (c ≠ ':')) (name i) (' ' :: num v) ':' hp
          (by simp)
        have h2 : (' ' :: num v).dropWhile (fun c => c.isWhitespace) = num v := by
          rw [hc, List.dropWhile_cons_of_pos (by rfl), List.dropWhile_cons_of_neg (by simp [hws])]
        have h3 : num v ≠ [] := by rw [hc]; simp
        have h4 := hread v [] hv (Or.inl rfl)
        rw [List.append_nil] at h4
        simp only [List.map_cons, List.map_nil, List.sum_cons, List.sum_nil, add_zero] at hs
        simp only [compositionText, massLoop, h1, hname, h2, h3, h4, if_false, if_true,
          List.dropWhile_nil, hs]
        simp only [List.map_cons, List.map_nil, List.sum_cons, List.sum_nil, add_zero]
        congr 1
        funext j
        by_cases hj : j = i
        · subst hj
          simp [entryValue]
        · simp [hj]
      | cons e' es' =>
        set tail := compositionText name num (e' :: es') with htail
        have h1 := takeWhile_append_stop (fun c => decide (c ≠ ':')) (name i)
          (' ' :: num v ++ ',' :: ' ' :: tail) ':' hp (by simp)
        have h2 : (' ' :: num v ++ ',' :: ' ' :: tail).dropWhile (fun c => c.isWhitespace) =
            num v ++ ',' :: ' ' :: tail := by
          rw [hc]
          simp only [List.cons_append]
          rw [List.dropWhile_cons_of_pos (by rfl), List.dropWhile_cons_of_neg (by simp [hws])]
        have h3 : num v ++ ',' :: ' ' :: tail ≠ [] := by simp
        have h4 := hread v (',' :: ' ' :: tail) hv (Or.inr ⟨_, rfl⟩)
        have h5 : ∃ d ds, tail = d :: ds ∧ d ≠ ',' ∧ d ≠ ' ' := by
          obtain ⟨i', v'⟩ := e'
          obtain ⟨d, ds, hd, hd1, hd2⟩ := hfirst i'
          cases es' with
          | nil => exact ⟨d, _, by rw [htail, compositionText, hd]; rfl, hd1, hd2⟩
          | cons e'' es'' => exact ⟨d, _, by rw [htail, compositionText, hd]; rfl, hd1, hd2⟩
        have h6 : (',' :: ' ' :: tail).dropWhile (fun c => decide (c = ',') || decide (c = ' ')) =
            tail := by
          obtain ⟨d, ds, hd, hd1, hd2⟩ := h5
          rw [hd, List.dropWhile_cons_of_pos (by rfl), List.dropWhile_cons_of_pos (by rfl),
            List.dropWhile_cons_of_neg (by simp [hd1, hd2])]
        have h7 : tail ≠ [] := by
          obtain ⟨d, ds, hd, -⟩ := h5
          rw [hd]; simp
        have hnd' := List.nodup_cons.mp (by simpa using hnd :
          (i :: (e'.1 :: es'.map Prod.fst)).Nodup)
        have hs' : sum + v + (List.map Prod.snd (e' :: es')).sum ≠ 0 := by
          rw [List.map_cons, List.sum_cons] at hs
          rw [add_assoc]
          exact hs
        have e1 : compositionText name num ((i, v) :: e' :: es') =
            name i ++ ':' :: (' ' :: num v ++ ',' :: ' ' :: tail) := by
          rw [htail, compositionText]
          simp
        have hstep : massLoop reader find (fuel + 1)
            (compositionText name num ((i, v) :: e' :: es')) Y sum =
            massLoop reader find fuel tail (fun j => if j = i then v else Y j) (sum + v) := by
          rw [e1]
          simp only [massLoop, h1, hname, h2, h3, h4, if_false, if_true, h6, h7]
        rw [hstep, ih fuel (fun j => if j = i then v else Y j) (sum + v)
          (fun e he => hV e (List.mem_cons_of_mem _ he)) (by simp)
          (by simp only [List.length_cons] at hf ⊢; omega) (by simpa using hnd'.2) hs']
        have e2 : sum + v + (List.map Prod.snd (e' :: es')).sum =
            sum + (List.map Prod.snd ((i, v) :: e' :: es')).sum := by
          rw [List.map_cons (l := e' :: es'), List.sum_cons, add_assoc]
        rw [e2]
        congr 1
        funext j
        congr 1
        by_cases hj : j = i
        · subst hj
          have hn : j ∉ List.map Prod.fst (e' :: es') := by simpa using hnd'.1
          rw [if_neg hn, if_pos rfl, List.map_cons (l := e' :: es'), if_pos (by simp)]
          simp [entryValue]
        · by_cases hm : j ∈ List.map Prod.fst (e' :: es')
          · rw [if_pos hm, List.map_cons (l := e' :: es'), if_pos (by
              exact List.mem_cons_of_mem _ hm)]
            conv_rhs => rw [entryValue]
            rw [if_neg hj]
          · rw [if_neg hm, if_neg hj, List.map_cons (l := e' :: es'), if_neg (by
              rw [List.mem_cons]
              push Not
              exact ⟨hj, hm⟩)]

/-- **C125** Setting the composition from a text: every list of distinct species with values whose
sum is not zero, written as `name: value, name: value`, is read as these values divided by their
sum; species which are not named get zero. Hypotheses: the names are those of the mechanism and
contain no colon and start neither with a comma nor with a space; the stream reads back the numbers
it is given up to the comma or the end. -/
theorem composition_text_partial (reader : List Char → NumRead K) (find : List Char → Option S)
    (name : S → List Char) (num : K → List Char)
    (hname : ∀ i, find (name i) = some i) (hcolon : ∀ i, ':' ∉ name i)
    (hfirst : ∀ i, ∃ c cs, name i = c :: cs ∧ c ≠ ',' ∧ c ≠ ' ')
    (es : List (S × K))
    (hnum : ∀ e ∈ es, ∃ c cs, num e.2 = c :: cs ∧ c.isWhitespace = false)
    (hread : ∀ e ∈ es, ∀ rest, (rest = [] ∨ ∃ cs, rest = ',' :: cs) →
      reader (num e.2 ++ rest) = ⟨e.2, rest, true⟩) (hne : es ≠ []) (hnd : (es.map Prod.fst).Nodup)
    (hs : (es.map Prod.snd).sum ≠ 0) :
    massFromString reader find (compositionText name num es) =
      .done (fun i => entryValue es i / (es.map Prod.snd).sum) := by
  have hlen : ∀ l : List (S × K), l.length ≤ (compositionText name num l).length := by
    intro l
    induction l with
    | nil => exact Nat.zero_le _
    | cons e l ih =>
      obtain ⟨i, v⟩ := e
      cases l with
      | nil =>
        simp only [compositionText, List.length_append, List.length_cons, List.length_nil]
        omega
      | cons e' l' =>
        simp only [compositionText, List.length_append, List.length_cons] at ih ⊢
        omega
  have h := massLoop_text reader find name num hname hcolon hfirst
    (fun v => ∃ e ∈ es, e.2 = v) (fun v ⟨e, he, hv⟩ => hv ▸ hnum e he)
    (fun v rest ⟨e, he, hv⟩ => hv ▸ hread e he rest) es
    ((compositionText name num es).length + 1) (fun _ => 0) 0
    (fun e he => ⟨e, he, rfl⟩) hne (by have := hlen es; omega) hnd (by rwa [zero_add])
  unfold massFromString
  rw [h]
  simp only [zero_add]
  congr 1
  funext i
  congr 1
  split_ifs with hi
  · rfl
  · clear hne hnd hs h hlen hnum hread
    induction es with
    | nil => rfl
    | cons e es ih =>
      simp only [List.map_cons, List.mem_cons, not_or] at hi
      rw [entryValue, if_neg hi.1]
      exact ih hi.2

end

/-! ### Concrete texts -/

/-- A reader of unsigned integers, enough for the witnesses: the characters of numbers are
collected as `num_get` does; anything but digits makes the conversion fail with the value zero. -/
def digitReader (l : List Char) : NumRead ℚ :=
  let acc := l.takeWhile (fun c => c.isDigit || c = '.' || c = '-' || c = 'e')
  let ok := acc ≠ [] ∧ ∀ c ∈ acc, c.isDigit = true
  if ok then ⟨((acc.foldl (fun n c => 10 * n + (c.toNat - '0'.toNat)) 0 : ℕ) : ℚ),
    l.dropWhile (fun c => c.isDigit || c = '.' || c = '-' || c = 'e'), true⟩
  else ⟨0, l.dropWhile (fun c => c.isDigit || c = '.' || c = '-' || c = 'e'), false⟩

/-- Two species, `H2` and `O2`. -/
def twoNames (l : List Char) : Option Bool :=
  if l = ['H', '2'] then some true else if l = ['O', '2'] then some false else none

/-- The two mass fractions if the text was accepted. -/
def ParseOutcome.values : ParseOutcome Bool ℚ → Option (ℚ × ℚ)
  | .done Y => some (Y true, Y false)
  | _ => none

/-- Non-vacuity of `composition_text_partial`: one part of hydrogen and three parts of oxygen. -/
example : (massFromString digitReader twoNames "H2: 1, O2: 3".toList).values =
    some (1 / 4, 3 / 4) := by
  have h := composition_text_partial digitReader twoNames
    (fun b => if b then ['H', '2'] else ['O', '2']) (fun v => if v = 1 then ['1'] else ['3'])
    (by decide) (by decide)
    (fun i => by cases i; exacts [⟨'O', ['2'], rfl, by decide⟩, ⟨'H', ['2'], rfl, by decide⟩])
    [(true, 1), (false, 3)]
    (by
      intro e he
      simp only [List.mem_cons, List.not_mem_nil, or_false] at he
      rcases he with rfl | rfl
      · exact ⟨'1', [], by norm_num, by decide⟩
      · exact ⟨'3', [], by norm_num, by decide⟩)
    (by
      have hstop : ∀ cs : List Char, (',' :: cs).takeWhile
          (fun c => c.isDigit || c = '.' || c = '-' || c = 'e') = [] := fun cs => by
        rw [List.takeWhile_cons_of_neg (by decide)]
      have hstop' : ∀ cs : List Char, (',' :: cs).dropWhile
          (fun c => c.isDigit || c = '.' || c = '-' || c = 'e') = ',' :: cs := fun cs => by
        rw [List.dropWhile_cons_of_neg (by decide)]
      intro e he rest hr
      simp only [List.mem_cons, List.not_mem_nil, or_false] at he
      rcases he with rfl | rfl <;> rcases hr with rfl | ⟨cs, rfl⟩ <;>
        simp [digitReader, hstop, hstop', List.takeWhile_cons, List.dropWhile_cons]) 
    (by simp) (by decide) (by norm_num)
  have e : compositionText (fun b => if b then ['H', '2'] else ['O', '2'])
      (fun v : ℚ => if v = 1 then ['1'] else ['3']) [(true, 1), (false, 3)] =
      "H2: 1, O2: 3".toList := by decide +kernel
  rw [e] at h
  rw [h]
  decide +kernel

/-- **C125** A species which is named twice is counted twice: the stored mass fractions do not sum
to one. -/
theorem composition_duplicate :
    (massFromString digitReader twoNames "H2:1,H2:1".toList).values = some (1 / 2, 0) := by
  decide +kernel

/-- **C125** A malformed number at the end of the text is accepted and read as zero, although the
same error elsewhere raises an exception. -/
theorem composition_malformed_number :
    (massFromString digitReader twoNames "H2:1,O2:3e".toList).values = some (1, 0) ∧
    (∃ Y, massFromString digitReader twoNames "O2:3e,H2:1".toList = .thrown Y) := by
  refine ⟨by decide +kernel, ?_⟩
  have h : (match massFromString digitReader twoNames "O2:3e,H2:1".toList with
    | .thrown _ => true
    | _ => false) = true := by decide +kernel
  revert h
  cases massFromString digitReader twoNames "O2:3e,H2:1".toList <;> simp

/-- **C125** A name without a number at the end of the text makes the function read an
uninitialised variable, and a composition of zeros makes it divide by zero; neither is reported. -/
theorem composition_undefined :
    (massFromString digitReader twoNames "H2:1,O2:".toList = .undefined) ∧
    massFromString digitReader twoNames "H2:0".toList = .notANumber := by
  have h1 : (match massFromString digitReader twoNames "H2:1,O2:".toList with
    | .undefined => true
    | _ => false) = true := by decide +kernel
  have h2 : (match massFromString digitReader twoNames "H2:0".toList with
    | .notANumber => true
    | _ => false) = true := by decide +kernel
  constructor
  · revert h1
    cases massFromString digitReader twoNames "H2:1,O2:".toList <;> simp
  · revert h2
    cases massFromString digitReader twoNames "H2:0".toList <;> simp

/-- **C125** An exception leaves the reactor with the values read so far, not with its old
composition: after `H2:2,N2:1` (unknown name) the mass fraction of hydrogen is two. -/
theorem composition_exception_state :
    (match massFromString digitReader twoNames "H2:2,N2:1".toList with
    | .thrown Y => some (Y true, Y false)
    | _ => none) = some (2, 0) := by
  decide +kernel

/-- **C125** A text which ends with a line break is rejected. -/
theorem composition_line_break :
    (match massFromString digitReader twoNames "H2:1\n".toList with
    | .thrown _ => true
    | _ => false) = true := by
  decide +kernel

end Fub
