import Verif.Spec.Splitting
import Mathlib.Tactic.Ring
import Mathlib.Algebra.BigOperators.Group.List.Lemmas

namespace Fub

section
variable {K S E : Type} [Field K]

/-! ### Helpers: a two-operator splitting as a pattern -/

/-- run a pattern: `true` is the first operator, the number is the fraction of the step size -/
def runPattern (p : List (Bool × K)) (dt : K) (a b : Op K S E) (s : S) : S × Option E :=
  match p with
  | [] => (s, none)
  | (x, c) :: rest => andThen ((if x then a else b) (c * dt) s) (fun s => runPattern rest dt a b s)

/-- the schedule produced by applying a pattern recursively to `n` operators, starting with number `i` -/
def patSched (p : List (Bool × K)) : Nat → Nat → K → List (Nat × K)
  | 0, _, _ => []
  | 1, i, dt => [(i, dt)]
  | n + 2, i, dt => p.flatMap (fun q => if q.1 then [(i, q.2 * dt)] else patSched p (n + 1) (i + 1) (q.2 * dt))

theorem andThen_assoc (r : S × Option E) (f g : S → S × Option E) :
    andThen (andThen r f) g = andThen r (fun s => andThen (f s) g) := by
  obtain ⟨s, _ | e⟩ := r <;> rfl

theorem andThen_none (r : S × Option E) : andThen r (fun s => (s, none)) = r := by
  obtain ⟨s, _ | e⟩ := r <;> rfl

omit [Field K] in
theorem runSchedule_append (ops : List (Op K S E)) (l1 l2 : List (Nat × K)) (h : ∀ q ∈ l1, q.1 < ops.length) (s : S) :
    runSchedule ops (l1 ++ l2) s = andThen (runSchedule ops l1 s) (fun s => runSchedule ops l2 s) := by
  induction l1 generalizing s with
  | nil => rfl
  | cons q l1 ih =>
    obtain ⟨i, dt⟩ := q
    have hi : i < ops.length := h (i, dt) (by simp)
    simp only [List.cons_append, runSchedule, List.getElem?_eq_getElem hi]
    rcases ops[i] dt s with ⟨s', _ | e⟩
    · exact ih (fun q hq => h q (by simp [hq])) s'
    · rfl

theorem patSched_index (p : List (Bool × K)) (n i : Nat) (dt : K) :
    ∀ q ∈ patSched p n i dt, i ≤ q.1 ∧ q.1 < i + n := by
  induction n generalizing i dt with
  | zero => simp [patSched]
  | succ n ih =>
    cases n with
    | zero => simp [patSched]
    | succ n =>
      intro q hq
      simp only [patSched, List.mem_flatMap] at hq
      obtain ⟨r, _, hr⟩ := hq
      split at hr
      · simp at hr; subst hr; simp
      · have := ih (i + 1) _ q hr; omega

theorem patSched_total (p : List (Bool × K))
    (h1 : ((p.filter (fun q => q.1)).map Prod.snd).sum = 1)
    (h2 : ((p.filter (fun q => !q.1)).map Prod.snd).sum = 1) (n i : Nat) (dt : K) (j : Nat)
    (hj : i ≤ j ∧ j < i + n) : totalTime j (patSched p n i dt) = dt := by
  induction n generalizing i dt with
  | zero => omega
  | succ n ih =>
    cases n with
    | zero =>
      have : j = i := by omega
      subst this
      simp [patSched, totalTime]
    | succ n =>
      have happ : ∀ (l1 l2 : List (Nat × K)), totalTime j (l1 ++ l2) = totalTime j l1 + totalTime j l2 := by
        intro l1 l2; simp [totalTime]
      by_cases hji : j = i
      · subst hji
        have key : ∀ p' : List (Bool × K), totalTime j (p'.flatMap (fun q => if q.1 then [(j, q.2 * dt)]
            else patSched p (n + 1) (j + 1) (q.2 * dt))) = ((p'.filter (fun q => q.1)).map Prod.snd).sum * dt := by
          intro p'
          induction p' with
          | nil => simp [totalTime]
          | cons q p' ihp =>
            rw [List.flatMap_cons, happ, ihp]
            obtain ⟨x, c⟩ := q
            cases x with
            | true => simp [totalTime, add_mul]
            | false =>
              have h0 : totalTime j (patSched p (n + 1) (j + 1) (c * dt)) = 0 := by
                have hnil : (patSched p (n + 1) (j + 1) (c * dt)).filter (fun q => q.1 == j) = [] := by
                  rw [List.filter_eq_nil_iff]
                  intro q hq
                  have := patSched_index p (n + 1) (j + 1) (c * dt) q hq
                  simp; omega
                simp [totalTime, hnil]
              simp [h0]
        simp only [patSched]
        rw [key, h1, one_mul]
      · have key : ∀ p' : List (Bool × K), totalTime j (p'.flatMap (fun q => if q.1 then [(i, q.2 * dt)]
            else patSched p (n + 1) (i + 1) (q.2 * dt))) = ((p'.filter (fun q => !q.1)).map Prod.snd).sum * dt := by
          intro p'
          induction p' with
          | nil => simp [totalTime]
          | cons q p' ihp =>
            rw [List.flatMap_cons, happ, ihp]
            obtain ⟨x, c⟩ := q
            cases x with
            | true =>
              have : totalTime j [(i, c * dt)] = 0 := by
                have : ¬ i = j := fun h => hji h.symm
                simp [totalTime, this]
              simp [this]
            | false =>
              rw [show (if (false, c).1 = true then [(i, (false, c).2 * dt)] else
                patSched p (n + 1) (i + 1) ((false, c).2 * dt)) = patSched p (n + 1) (i + 1) (c * dt) from by simp]
              rw [ih (i + 1) (c * dt) (by omega)]
              simp [add_mul]
        simp only [patSched]
        rw [key, h2, one_mul]

/-- The recursive application of a pattern method executes its schedule. -/
theorem advanceRec_eq_schedule (M : Split2 K S E) (p : List (Bool × K))
    (hM : ∀ dt a b s, M dt a b s = runPattern p dt a b s) (pre ops : List (Op K S E)) (dt : K) (s : S) :
    advanceRec M ops dt s = runSchedule (pre ++ ops) (patSched p ops.length pre.length dt) s := by
  induction ops generalizing pre dt s with
  | nil => rfl
  | cons a ops ih =>
    have hidx : ∀ (n : Nat) (dt : K), n + pre.length + 1 ≤ (pre ++ a :: ops).length →
        ∀ q ∈ patSched p n (pre.length + 1) dt, q.1 < (pre ++ a :: ops).length := by
      intro n dt hn q hq
      have := patSched_index p n (pre.length + 1) dt q hq
      omega
    have hgen : ∀ (b : Op K S E) (m : Nat), m + pre.length + 1 ≤ (pre ++ a :: ops).length →
        (∀ dt s, b dt s = runSchedule (pre ++ a :: ops) (patSched p m (pre.length + 1) dt) s) →
        ∀ s, runPattern p dt a b s = runSchedule (pre ++ a :: ops)
          (p.flatMap (fun q => if q.1 then [(pre.length, q.2 * dt)] else patSched p m (pre.length + 1) (q.2 * dt))) s := by
      intro b m hm hb
      have : ∀ (p' : List (Bool × K)) s, runPattern p' dt a b s = runSchedule (pre ++ a :: ops)
          (p'.flatMap (fun q => if q.1 then [(pre.length, q.2 * dt)] else patSched p m (pre.length + 1) (q.2 * dt))) s := by
        intro p'
        induction p' with
        | nil => intro s; rfl
        | cons q p' ihp =>
          intro s
          obtain ⟨x, c⟩ := q
          have hl : pre.length < (pre ++ a :: ops).length := by simp
          rw [List.flatMap_cons, runSchedule_append]
          · simp only [runPattern]
            have hhead : (if x = true then a else b) (c * dt) s = runSchedule (pre ++ a :: ops)
                (if x = true then [(pre.length, c * dt)] else patSched p m (pre.length + 1) (c * dt)) s := by
              cases x with
              | true =>
                simp only [if_true, runSchedule, List.getElem?_eq_getElem hl]
                have : (pre ++ a :: ops)[pre.length] = a := by simp
                rw [this]
                rcases a (c * dt) s with ⟨s', _ | e⟩ <;> rfl
              | false => simpa using hb (c * dt) s
            rw [hhead]
            congr 1
            funext s
            exact ihp s
          · intro q hq
            cases x with
            | true => simp at hq; subst hq; exact hl
            | false =>
              simp only [Bool.false_eq_true, if_false] at hq
              exact hidx m _ hm q hq
      exact this p
    have happ : pre ++ a :: ops = (pre ++ [a]) ++ ops := by simp
    cases ops with
    | nil =>
      have hl : pre.length < (pre ++ [a]).length := by simp
      simp only [advanceRec, List.length_cons, List.length_nil, Nat.zero_add, patSched, runSchedule,
        List.getElem?_eq_getElem hl]
      have : (pre ++ [a])[pre.length] = a := by simp
      rw [this]
      rcases a dt s with ⟨s', _ | e⟩ <;> rfl
    | cons b ops =>
      cases ops with
      | nil =>
        simp only [advanceRec, hM, List.length_cons, List.length_nil, Nat.zero_add]
        exact hgen b 1 (by simp; omega) (fun dt s => by
          have := ih (pre ++ [a]) dt s
          rw [← happ] at this
          simpa [advanceRec] using this) s
      | cons c ops =>
        have hrec : advanceRec M (a :: b :: c :: ops) dt s =
            M dt a (fun dt' => advanceRec M (b :: c :: ops) dt') s := rfl
        rw [hrec, hM]
        exact hgen (fun dt' => advanceRec M (b :: c :: ops) dt') (ops.length + 2) (by simp; omega) (fun dt s => by
          have := ih (pre ++ [a]) dt s
          rw [← happ] at this
          simpa using this) s

/-- pattern of Godunov splitting -/
def godunovPat : List (Bool × K) := [(true, 1), (false, 1)]
/-- pattern of Strang splitting -/
def strangPat : List (Bool × K) := [(true, 1 / 2), (false, 1 / 2), (false, 1 / 2), (true, 1 / 2)]
/-- pattern of lumped Strang splitting -/
def lumpedPat : List (Bool × K) := [(true, 1 / 2), (false, 1), (true, 1 / 2)]

theorem flatMap_reverse {α β : Type} (l : List α) (f : α → List β) :
    (l.flatMap f).reverse = l.reverse.flatMap (fun x => (f x).reverse) := by
  induction l with
  | nil => rfl
  | cons a l ih => simp [List.flatMap_cons, List.flatMap_append, ih]

theorem patSched_palindrome (p : List (Bool × K)) (hp : p.reverse = p) (n i : Nat) (dt : K) :
    (patSched p n i dt).reverse = patSched p n i dt := by
  induction n generalizing i dt with
  | zero => rfl
  | succ n ih =>
    cases n with
    | zero => rfl
    | succ n =>
      simp only [patSched]
      rw [flatMap_reverse, hp]
      congr 1
      funext q
      split
      · rfl
      · exact ih _ _

end

end Fub
