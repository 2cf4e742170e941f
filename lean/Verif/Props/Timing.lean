import Verif.Model.Timing
import Mathlib.Tactic.Ring
import Mathlib.Tactic.Linarith
import Mathlib.Tactic.NormNum
import Mathlib.Tactic.Positivity

/-!
# Properties of the timing statistics: C52, C53, C63
-/

namespace MSF.Timing

/-! ### Accumulator -/

section
variable {R : Type} [Field R] [LinearOrder R] {N : Nat}

/-- The last `N` samples. -/
def lastN (N : Nat) (l : List R) : List R := l.drop (l.length - N)

/-- What the accumulator knows about the samples seen so far. -/
structure Inv (a : Acc R N) (l : List R) : Prop where
  ws : a.windowSamples = l.length
  ts : a.totalSamples = l.length
  sum : a.sum = l.sum
  min : a.min = l.foldl Min.min dblMax
  max : a.max = l.foldl Max.max dblMin
  row : ∀ j (hj : j < l.length), l.length ≤ j + N → ∀ h : j % N < N, a.samples ⟨j % N, h⟩ = l[j]
  win : ∀ f : R → R, (∑ i : Fin N, if i.val < Nat.min l.length N then f (a.samples i) else 0) =
    ((lastN N l).map f).sum
  wsum : a.windowSum = (lastN N l).sum

theorem inv_init (junk : Fin N → R) : Inv (Acc.init junk) [] where
  ws := rfl
  ts := rfl
  sum := rfl
  min := rfl
  max := rfl
  row := fun j hj => by simp at hj
  win := fun f => by simp [lastN]
  wsum := by simp [lastN, Acc.init]

omit [Field R] [LinearOrder R] in
theorem lastN_short {l : List R} {x : R} (h : l.length < N) : lastN N (l ++ [x]) = lastN N l ++ [x] := by
  unfold lastN
  rw [List.length_append, List.length_singleton, show l.length + 1 - N = 0 by omega,
    show l.length - N = 0 by omega]
  rfl

omit [Field R] [LinearOrder R] in
theorem lastN_long {l : List R} {x : R} (hN : 0 < N) (h : N ≤ l.length) :
    ∃ t, lastN N l = l[l.length - N] :: t ∧ lastN N (l ++ [x]) = t ++ [x] := by
  refine ⟨l.drop (l.length - N + 1), List.drop_eq_getElem_cons (by omega), ?_⟩
  unfold lastN
  rw [List.length_append, List.length_singleton, show l.length + 1 - N = l.length - N + 1 by omega,
    List.drop_append_of_le_length (by omega)]

theorem inv_add (hN : 0 < N) {a : Acc R N} {l : List R} (h : Inv a l) (x : R)
    (hl : l.length < intMax) : ∃ a', a.add x = some a' ∧ Inv a' (l ++ [x]) := by
  have hws := h.ws
  have hmin : (if x < a.min then x else a.min) = (l ++ [x]).foldl Min.min dblMax := by
    rw [List.foldl_append, ← h.min]
    simp only [List.foldl_cons, List.foldl_nil]
    split
    · rename_i hh; exact (min_eq_right hh.le).symm
    · rename_i hh; exact (min_eq_left (not_lt.1 hh)).symm
  have hmax : (if a.max < x then x else a.max) = (l ++ [x]).foldl Max.max dblMin := by
    rw [List.foldl_append, ← h.max]
    simp only [List.foldl_cons, List.foldl_nil]
    split
    · rename_i hh; exact (max_eq_right hh.le).symm
    · rename_i hh; exact (max_eq_left (not_lt.1 hh)).symm
  have hov : ¬ (a.windowSamples = intMax ∨ a.totalSamples = intMax) := by
    rw [h.ws, h.ts]; omega
  have hrow : ∀ (r : Nat) (hr : r < N), r = l.length % N →
      ∀ j (hj : j < (l ++ [x]).length), (l ++ [x]).length ≤ j + N → ∀ hh : j % N < N,
        Function.update a.samples ⟨r, hr⟩ x ⟨j % N, hh⟩ = (l ++ [x])[j] := by
    intro r hr hre j hj hle hh
    rw [List.length_append, List.length_singleton] at hj hle
    by_cases hjl : j = l.length
    · subst hjl
      subst hre
      rw [Function.update_self]
      simp
    · have hj' : j < l.length := by omega
      rw [List.getElem_append_left hj', ← h.row j hj' (by omega) hh]
      refine Function.update_of_ne ?_ _ _
      intro e
      have e := congrArg Fin.val e
      simp only at e
      rw [hre] at e
      -- two indices less than N apart with the same remainder
      have h1 := Nat.div_add_mod j N
      have h2 := Nat.div_add_mod l.length N
      rw [e] at h1
      have h3 : N * (j / N) < N * (l.length / N) := by omega
      have h4 : j / N + 1 ≤ l.length / N := Nat.lt_of_mul_lt_mul_left h3
      have h5 := Nat.mul_le_mul_left N h4
      rw [Nat.mul_add] at h5
      omega
  by_cases hlt : a.windowSamples < N
  · have hlt' : l.length < N := hws ▸ hlt
    refine ⟨_, by rw [Acc.add, if_neg hov]; simp only; rw [dif_pos hlt], ?_⟩
    constructor
    · simp [hws]
    · simp [h.ts]
    · simp [h.sum]
    · exact hmin
    · exact hmax
    · exact hrow _ _ (by rw [hws, Nat.mod_eq_of_lt hlt'])
    · intro f
      rw [lastN_short hlt', List.map_append, List.sum_append, ← h.win f]
      simp only [List.length_append, List.length_singleton, List.map_singleton, List.sum_singleton]
      have e : ∀ i : Fin N, (if i.val < Nat.min (l.length + 1) N then
          f (Function.update a.samples ⟨a.windowSamples, hlt⟩ x i) else 0) =
          (if i.val < Nat.min l.length N then f (a.samples i) else 0) +
          (if i = ⟨a.windowSamples, hlt⟩ then f x else 0) := by
        intro i
        have hm1 : Nat.min (l.length + 1) N = l.length + 1 := Nat.min_eq_left hlt'
        have hm2 : Nat.min l.length N = l.length := Nat.min_eq_left hlt'.le
        rw [hm1, hm2]
        by_cases hi : i = ⟨a.windowSamples, hlt⟩
        · subst hi
          rw [Function.update_self]
          simp [hws]
        · have hi' : i.val ≠ l.length := fun e => hi (Fin.ext (by simp [hws, e]))
          rw [Function.update_of_ne hi, if_neg hi, add_zero]
          by_cases h1 : i.val < l.length
          · rw [if_pos h1, if_pos (by omega)]
          · rw [if_neg h1, if_neg (by omega)]
      rw [Finset.sum_congr rfl fun i _ => e i, Finset.sum_add_distrib]
      simp
    · rw [lastN_short hlt', List.sum_append, ← h.wsum]
      simp
  · have hge : N ≤ l.length := by omega
    have hmod : a.windowSamples % N < N := Nat.mod_lt _ hN
    refine ⟨_, by rw [Acc.add, if_neg hov]; simp only; rw [dif_neg hlt, dif_pos hmod], ?_⟩
    obtain ⟨t, ht1, ht2⟩ := lastN_long (x := x) hN hge
    have hold : a.samples ⟨a.windowSamples % N, hmod⟩ = l[l.length - N] := by
      rw [← h.row (l.length - N) (by omega) (by omega) (Nat.mod_lt _ hN)]
      congr 1
      refine Fin.ext ?_
      simp only
      rw [hws, ← Nat.sub_add_cancel hge, Nat.add_mod_right, Nat.add_sub_cancel]
    constructor
    · simp [hws]
    · simp [h.ts]
    · simp [h.sum]
    · exact hmin
    · exact hmax
    · exact hrow _ _ (by rw [hws])
    · intro f
      have hw := h.win f
      rw [ht1, List.map_cons, List.sum_cons] at hw
      rw [ht2, List.map_append, List.sum_append]
      simp only [List.length_append, List.length_singleton, List.map_singleton, List.sum_singleton]
      have hm1 : Nat.min (l.length + 1) N = N := Nat.min_eq_right (by omega)
      have hm2 : Nat.min l.length N = N := Nat.min_eq_right hge
      rw [hm2] at hw
      rw [hm1]
      simp only [Fin.is_lt, if_true] at hw ⊢
      have e : ∀ i : Fin N,
          f (Function.update a.samples ⟨a.windowSamples % N, hmod⟩ x i) =
          f (a.samples i) + (if i = ⟨a.windowSamples % N, hmod⟩ then f x - f l[l.length - N] else 0) := by
        intro i
        by_cases hi : i = ⟨a.windowSamples % N, hmod⟩
        · subst hi
          rw [Function.update_self, hold, if_pos rfl]
          ring
        · rw [Function.update_of_ne hi, if_neg hi, add_zero]
      rw [Finset.sum_congr rfl fun i _ => e i, Finset.sum_add_distrib, hw]
      simp only [Finset.sum_ite_eq', Finset.mem_univ, if_true]
      ring
    · have := h.wsum
      rw [ht1, List.sum_cons] at this
      simp only [hold]
      rw [ht2, List.sum_append, this, List.sum_singleton]
      ring

theorem inv_addAll (hN : 0 < N) (l' : List R) : ∀ {a : Acc R N} {l : List R}, Inv a l →
    l.length + l'.length ≤ intMax → ∃ a', a.addAll l' = some a' ∧ Inv a' (l ++ l') := by
  induction l' with
  | nil => intro a l h _; exact ⟨a, rfl, by simpa using h⟩
  | cons x xs ih =>
    intro a l h hl
    rw [List.length_cons] at hl
    obtain ⟨a1, h1, h2⟩ := inv_add hN h x (by omega)
    obtain ⟨a2, h3, h4⟩ := ih h2 (by simp; omega)
    refine ⟨a2, ?_, by simpa using h4⟩
    rw [Acc.addAll, h1]
    exact h3

omit [Field R] in
theorem foldl_min_spec (l : List R) (b : R) :
    (l.foldl Min.min b = b ∨ l.foldl Min.min b ∈ l) ∧ l.foldl Min.min b ≤ b ∧
      ∀ x ∈ l, l.foldl Min.min b ≤ x := by
  induction l generalizing b with
  | nil => simp
  | cons y l ih =>
    obtain ⟨h1, h2, h3⟩ := ih (min b y)
    rw [List.foldl_cons]
    refine ⟨?_, h2.trans (min_le_left _ _), ?_⟩
    · rcases h1 with h1 | h1
      · rw [h1]
        rcases min_choice b y with h | h
        · exact Or.inl h
        · exact Or.inr (by rw [h]; exact List.mem_cons_self)
      · exact Or.inr (List.mem_cons_of_mem _ h1)
    · intro x hx
      rcases List.mem_cons.1 hx with rfl | hx
      · exact h2.trans (min_le_right _ _)
      · exact h3 x hx

omit [Field R] in
theorem foldl_max_spec (l : List R) (b : R) :
    (l.foldl Max.max b = b ∨ l.foldl Max.max b ∈ l) ∧ b ≤ l.foldl Max.max b ∧
      ∀ x ∈ l, x ≤ l.foldl Max.max b := by
  induction l generalizing b with
  | nil => simp
  | cons y l ih =>
    obtain ⟨h1, h2, h3⟩ := ih (max b y)
    rw [List.foldl_cons]
    refine ⟨?_, (le_max_left _ _).trans h2, ?_⟩
    · rcases h1 with h1 | h1
      · rw [h1]
        rcases max_choice b y with h | h
        · exact Or.inl h
        · exact Or.inr (by rw [h]; exact List.mem_cons_self)
      · exact Or.inr (List.mem_cons_of_mem _ h1)
    · intro x hx
      rcases List.mem_cons.1 hx with rfl | hx
      · exact (le_max_right _ _).trans h2
      · exact h3 x hx

/-- **C52, partial.**  For every window size, every non-empty sequence of at most 2^31 - 1 samples
not above the largest double, whatever the uninitialized memory holds: number, sum, mean, minimum,
and mean and variance over the last `N` samples are exact.  Missing: the maximum is exact only if
some sample is at least the smallest positive normal double (`C52_violated_max`), and longer
sequences overflow a counter (`C52_violated_overflow`). -/
theorem C52_statistics_partial (hN : 0 < N) (junk : Fin N → R) (l : List R) (hl : l ≠ [])
    (hlen : l.length ≤ intMax) (hbound : ∀ x ∈ l, x ≤ dblMax) :
    ∃ a, (Acc.init junk).addAll l = some a ∧
      a.totalSamples = l.length ∧ a.sum = l.sum ∧ a.mean = some (l.sum / (l.length : R)) ∧
      (a.min ∈ l ∧ ∀ x ∈ l, a.min ≤ x) ∧
      ((∃ x ∈ l, dblMin ≤ x) → a.max ∈ l ∧ ∀ x ∈ l, x ≤ a.max) ∧
      (let w := lastN N l
       let m := w.sum / (w.length : R)
       a.rollingMean = some m ∧
       a.lazyVariance = (w.map fun x => (x - m) * (x - m)).sum / (w.length : R)) := by
  obtain ⟨a, h1, h2⟩ := inv_addAll hN l (inv_init junk) (by simpa using hlen)
  rw [List.nil_append] at h2
  have hpos : 0 < l.length := List.length_pos_iff.2 hl
  obtain ⟨m1, m2, m3⟩ := foldl_min_spec l (dblMax : R)
  obtain ⟨M1, M2, M3⟩ := foldl_max_spec l (dblMin : R)
  have hwl : (lastN N l).length = Nat.min l.length N := by
    unfold lastN
    rw [List.length_drop]
    rcases Nat.le_total l.length N with h | h
    · rw [show Nat.min l.length N = l.length from Nat.min_eq_left h]; omega
    · rw [show Nat.min l.length N = N from Nat.min_eq_right h]; omega
  have hwpos : Nat.min l.length N ≠ 0 := by
    rcases Nat.le_total l.length N with h | h
    · rw [show Nat.min l.length N = l.length from Nat.min_eq_left h]; omega
    · rw [show Nat.min l.length N = N from Nat.min_eq_right h]; omega
  have hroll : a.rollingMean = some ((lastN N l).sum / ((lastN N l).length : R)) := by
    rw [Acc.rollingMean, h2.ws, if_neg hwpos, h2.wsum, hwl]
  refine ⟨a, h1, h2.ts, h2.sum, ?_, ?_, ?_, hroll, ?_⟩
  · rw [Acc.mean, h2.ts, if_neg (by omega), h2.sum]
  · rw [h2.min]
    refine ⟨?_, m3⟩
    rcases m1 with m1 | m1
    · obtain ⟨x, hx⟩ := List.exists_mem_of_ne_nil l hl
      have := le_antisymm (m1 ▸ m3 x hx) (hbound x hx)
      rw [m1, this]
      exact hx
    · exact m1
  · rintro ⟨x, hx, hx'⟩
    rw [h2.max]
    refine ⟨?_, M3⟩
    rcases M1 with M1 | M1
    · have : x = dblMin := le_antisymm (M1 ▸ M3 x hx) hx'
      rw [M1, ← this]
      exact hx
    · exact M1
  · rw [Acc.lazyVariance, hroll, h2.ws]
    simp only
    rw [h2.win fun y => (y - (lastN N l).sum / ((lastN N l).length : R)) *
      (y - (lastN N l).sum / ((lastN N l).length : R)), hwl]

end

/-- **C52 is violated: maximum.**  After the single sample 0 (a duration below the clock
resolution), or any negative one, the reported maximum is a positive number that was never a
sample. -/
theorem C52_violated_max (x : ℚ) (hx : x ≤ 0) (junk : Fin 50 → ℚ) :
    ∃ a, (Acc.init junk).addAll [x] = some a ∧ x < a.max := by
  obtain ⟨a, h1, h2⟩ := inv_addAll (R := ℚ) (N := 50) (by norm_num) [x] (inv_init junk)
    (by simp [intMax])
  refine ⟨a, h1, lt_of_le_of_lt hx ?_⟩
  rw [h2.max]
  have := (foldl_max_spec ([] ++ [x]) (dblMin : ℚ)).2.1
  refine lt_of_lt_of_le ?_ this
  unfold dblMin
  positivity

/-- **C52 is violated: overflow.**  Every sequence of 2^31 samples ends in the overflow of a signed
counter. -/
theorem C52_violated_overflow (l : List ℚ) (x : ℚ) (hl : l.length = intMax) (junk : Fin 50 → ℚ) :
    (Acc.init junk).addAll (l ++ [x]) = none := by
  obtain ⟨a, h1, h2⟩ := inv_addAll (R := ℚ) (N := 50) (by norm_num) l (inv_init junk)
    (by simp [hl])
  have happ : ∀ (l : List ℚ) (a : Acc ℚ 50) (a' : Acc ℚ 50), a.addAll l = some a' →
      a.addAll (l ++ [x]) = a'.addAll [x] := by
    intro l
    induction l with
    | nil => intro a a' h; cases h; rfl
    | cons y l ih =>
      intro a a' h
      rw [Acc.addAll] at h
      rw [List.cons_append, Acc.addAll]
      cases hy : a.add y with
      | none => rw [hy] at h; cases h
      | some b => rw [hy] at h; exact ih b a' h
  rw [happ l _ a h1, Acc.addAll, Acc.add, if_pos (Or.inl (by rw [h2.ws]; simpa using hl))]
  rfl

example : ∃ a, (Acc.init (fun _ => 7) : Acc ℚ 2).addAll [1, 5, 3] = some a ∧
    a.rollingMean = some 4 ∧ a.lazyVariance = 1 ∧ a.max = 5 := by
  refine ⟨_, rfl, ?_, ?_, ?_⟩ <;> decide +kernel

/-! ### Handles -/

/-- Calls on the registry. -/
inductive Op
  | get (tag : String)
  | reset

/-- A sequence of calls: the registry afterwards and what `GetHandle` returned, with the number of
resets before the call; oldest first. -/
def runOps : List Op → Registry → Nat → Registry × List (Nat × String × Nat)
  | [], r, _ => (r, [])
  | .get tag :: ops, r, k =>
    let (h, r') := r.getHandle tag
    let (r'', out) := runOps ops r' k
    (r'', (k, tag, h) :: out)
  | .reset :: ops, r, k => runOps ops r.reset (k + 1)

/-- Entries are issued handles; the current epoch's are all present. -/
structure RInv (r : Registry) (k : Nat) (hist : List (Nat × String × Nat)) : Prop where
  lt : ∀ e ∈ hist, e.2.2 < r.timers
  inj : ∀ e ∈ hist, ∀ e' ∈ hist, e.2.2 = e'.2.2 → e.1 = e'.1 ∧ e.2.1 = e'.2.1
  fn : ∀ e ∈ hist, ∀ e' ∈ hist, e.1 = e'.1 → e.2.1 = e'.2.1 → e.2.2 = e'.2.2
  cur : ∀ e ∈ hist, e.1 = k → (e.2.1, e.2.2) ∈ r.tagMap
  map : ∀ e ∈ r.tagMap, (k, e.1, e.2) ∈ hist
  le : ∀ e ∈ hist, e.1 ≤ k

theorem rinv_get {r : Registry} {k : Nat} {hist : List (Nat × String × Nat)} (h : RInv r k hist)
    (tag : String) :
    RInv (r.getHandle tag).2 k (hist ++ [(k, tag, (r.getHandle tag).1)]) := by
  unfold Registry.getHandle
  cases hf : r.tagMap.find? (fun e => decide (e.1 = tag)) with
  | some e =>
    have hmem := List.mem_of_find?_eq_some hf
    have htag : e.1 = tag := by simpa using List.find?_some hf
    have hh := h.map e hmem
    rw [htag] at hh
    simp only
    have hsub : ∀ x, x ∈ hist ++ [(k, tag, e.2)] → x ∈ hist := by
      intro x hx
      rcases List.mem_append.1 hx with hx | hx
      · exact hx
      · rw [List.mem_singleton] at hx; rw [hx]; exact hh
    exact ⟨fun x hx => h.lt x (hsub x hx), fun x hx y hy => h.inj x (hsub x hx) y (hsub y hy),
      fun x hx y hy => h.fn x (hsub x hx) y (hsub y hy), fun x hx => h.cur x (hsub x hx),
      fun x hx => List.mem_append_left _ (h.map x hx), fun x hx => h.le x (hsub x hx)⟩
  | none =>
    simp only
    have hno : ∀ e ∈ r.tagMap, e.1 ≠ tag := by
      intro e he
      have := List.find?_eq_none.1 hf e he
      simpa using this
    refine ⟨?_, ?_, ?_, ?_, ?_, ?_⟩
    · intro x hx
      rcases List.mem_append.1 hx with hx | hx
      · exact Nat.lt_succ_of_lt (h.lt x hx)
      · rw [List.mem_singleton] at hx; rw [hx]; exact Nat.lt_succ_self _
    · intro x hx y hy hxy
      rcases List.mem_append.1 hx with hx | hx <;> rcases List.mem_append.1 hy with hy | hy
      · exact h.inj x hx y hy hxy
      · rw [List.mem_singleton] at hy
        subst hy
        exact absurd (h.lt x hx) (by simp only at hxy; omega)
      · rw [List.mem_singleton] at hx
        subst hx
        exact absurd (h.lt y hy) (by simp only at hxy; omega)
      · rw [List.mem_singleton] at hx hy
        subst hx; subst hy
        exact ⟨rfl, rfl⟩
    · intro x hx y hy h1 h2
      rcases List.mem_append.1 hx with hx | hx <;> rcases List.mem_append.1 hy with hy | hy
      · exact h.fn x hx y hy h1 h2
      · rw [List.mem_singleton] at hy
        subst hy
        exact absurd h2 (hno _ (h.cur x hx h1))
      · rw [List.mem_singleton] at hx
        subst hx
        exact absurd h2.symm (hno _ (h.cur y hy h1.symm))
      · rw [List.mem_singleton] at hx hy
        subst hx; subst hy
        rfl
    · intro x hx hk
      rcases List.mem_append.1 hx with hx | hx
      · exact List.mem_cons_of_mem _ (h.cur x hx hk)
      · rw [List.mem_singleton] at hx; subst hx; exact List.mem_cons_self
    · intro x hx
      rcases List.mem_cons.1 hx with rfl | hx
      · exact List.mem_append_right _ List.mem_cons_self
      · exact List.mem_append_left _ (h.map x hx)
    · intro x hx
      rcases List.mem_append.1 hx with hx | hx
      · exact h.le x hx
      · rw [List.mem_singleton] at hx; subst hx; exact le_refl _

theorem rinv_run (ops : List Op) : ∀ (r : Registry) (k : Nat) (hist : List (Nat × String × Nat)),
    RInv r k hist → ∃ k', RInv (runOps ops r k).1 k' (hist ++ (runOps ops r k).2) := by
  induction ops with
  | nil => intro r k hist h; exact ⟨k, by simpa [runOps] using h⟩
  | cons op ops ih =>
    intro r k hist h
    cases op with
    | get tag =>
      obtain ⟨k', h'⟩ := ih _ k _ (rinv_get h tag)
      exact ⟨k', by simpa [runOps] using h'⟩
    | reset =>
      have : RInv r.reset (k + 1) hist :=
        ⟨h.lt, h.inj, h.fn, fun e he hk => absurd (h.le e he) (by omega), (fun e he => nomatch he),
          fun e he => Nat.le_succ_of_le (h.le e he)⟩
      exact ih _ _ _ this

theorem rinv_init : RInv Registry.init 0 [] := by
  constructor <;> simp [Registry.init]

/-- **C53.**  For every sequence of handle requests and resets, of any length: two requests return
the same handle exactly if they ask for the same tag with no reset in between.  In particular a
handle issued before a reset never denotes another tag, nor the same tag's new timer, afterwards. -/
theorem C53_handles (ops : List Op) (i j : Nat) (ki kj : Nat) (ti tj : String) (hi hj : Nat)
    (h1 : (runOps ops Registry.init 0).2[i]? = some (ki, ti, hi))
    (h2 : (runOps ops Registry.init 0).2[j]? = some (kj, tj, hj)) :
    hi = hj ↔ (ki = kj ∧ ti = tj) := by
  obtain ⟨k', h⟩ := rinv_run ops Registry.init 0 [] rinv_init
  rw [List.nil_append] at h
  have m1 := List.mem_of_getElem? h1
  have m2 := List.mem_of_getElem? h2
  constructor
  · intro e; exact h.inj _ m1 _ m2 e
  · rintro ⟨e1, e2⟩; exact h.fn _ m1 _ m2 e1 e2

/-- **C53, names.**  After any sequence of calls, `GetTag` of the handle of a tag is the tag, and
every handle issued addresses an existing timer. -/
theorem C53_get_tag (ops : List Op) (tag : String) :
    let r := (runOps ops Registry.init 0).1
    (r.getHandle tag).2.getTag (r.getHandle tag).1 = tag ∧
      (r.getHandle tag).1 < (r.getHandle tag).2.timers ∧
      ∀ e ∈ (runOps ops Registry.init 0).2, e.2.2 < r.timers := by
  intro r
  obtain ⟨k', h⟩ := rinv_run ops Registry.init 0 [] rinv_init
  rw [List.nil_append] at h
  have h' := rinv_get h tag
  have hlast : (k', tag, (r.getHandle tag).1) ∈
      (runOps ops Registry.init 0).2 ++ [(k', tag, (r.getHandle tag).1)] :=
    List.mem_append_right _ List.mem_cons_self
  refine ⟨?_, h'.lt _ hlast, h.lt⟩
  have hcur := h'.cur _ hlast rfl
  unfold Registry.getTag
  cases hf : (r.getHandle tag).2.tagMap.find? (fun e => decide (e.2 = (r.getHandle tag).1)) with
  | none =>
    have := List.find?_eq_none.1 hf _ hcur
    simp at this
  | some e =>
    have hmem := List.mem_of_find?_eq_some hf
    have hh : e.2 = (r.getHandle tag).1 := by simpa using List.find?_some hf
    exact (h'.inj _ (h'.map e hmem) _ hlast hh).2

example : (runOps [.get "a", .get "b", .get "a", .reset, .get "a"] Registry.init 0).2 =
    [(0, "a", 0), (0, "b", 1), (0, "a", 0), (1, "a", 2)] := by decide +kernel

/-! ### Printed durations -/

/-- **C63, partial.**  Durations below one minute are shown as they are. -/
theorem C63_shown_partial (s : ℚ) (h0 : 0 ≤ s) (h : s < 60) : secondsShown s = s := by
  have : ⌊s / 60⌋ = 0 := by
    rw [Int.floor_eq_zero_iff]
    constructor
    · positivity
    · rw [div_lt_one (by norm_num)]; exact h
  rw [secondsShown, this]
  simp

/-- **C63 is violated.**  Durations that differ by whole minutes are shown alike. -/
theorem C63_violated (s : ℚ) (n : Nat) : secondsShown (s + 60 * n) = secondsShown s := by
  have : (s + 60 * n) / 60 = s / 60 + n := by ring
  rw [secondsShown, secondsShown, this, Int.floor_add_natCast]
  push_cast
  ring

end MSF.Timing
