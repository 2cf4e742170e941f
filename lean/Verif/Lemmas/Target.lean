import Verif.Spec.Batch
import Verif.Lemmas.Sweep2
import Mathlib.Tactic.Module
import Mathlib.Tactic.FieldSimp

/-!
# Facts about the batch specification
-/

namespace MSF
open Spec
variable {A W X C M T E : Type}

theorem nearestStamp_near {t : ℚ} {ks : List ℚ} (hs : ks.Pairwise (· < ·)) {k : ℚ}
    (h : nearestStamp t ks = some k) : NearKey t k ks := by
  induction ks generalizing k with
  | nil => simp [nearestStamp] at h
  | cons a ks ih =>
    rw [List.pairwise_cons] at hs
    unfold nearestStamp at h
    cases h0 : nearestStamp t ks with
    | none =>
      cases ks with
      | nil =>
        simp [h0] at h
        subst h
        exact ⟨by simp, by simp⟩
      | cons b ks =>
        exfalso
        unfold nearestStamp at h0
        split at h0
        · simp at h0
        · split at h0 <;> simp at h0
    | some k' =>
      have hk' := ih hs.2 h0
      rw [h0] at h
      simp only at h
      split at h
      · rename_i hlt
        simp only [Option.some.injEq] at h
        subst h
        refine ⟨by simp [hk'.1], ?_⟩
        intro q hq
        rcases List.mem_cons.1 hq with rfl | hq
        · exact ⟨hlt.le, fun e => absurd hlt (by rw [e]; exact lt_irrefl _)⟩
        · exact hk'.2 q hq
      · rename_i hlt
        simp only [Option.some.injEq] at h
        subst h
        refine ⟨by simp, ?_⟩
        intro q hq
        rcases List.mem_cons.1 hq with rfl | hq
        · exact ⟨le_refl _, fun _ => le_refl _⟩
        · have h1 := (hk'.2 q hq).1
          exact ⟨(not_lt.1 hlt).trans h1, fun _ => (hs.1 q hq).le⟩

theorem nearestStamp_isSome {t : ℚ} {ks : List ℚ} (h : ks ≠ []) :
    ∃ k, nearestStamp t ks = some k := by
  cases ks with
  | nil => exact absurd rfl h
  | cons a ks =>
    unfold nearestStamp
    split
    · exact ⟨_, rfl⟩
    · split <;> exact ⟨_, rfl⟩

theorem NearKey.unique {t k k' : ℚ} {ks : List ℚ} (h : NearKey t k ks) (h' : NearKey t k' ks) :
    k = k' := by
  have h1 := h.2 k' h'.1
  have h2 := h'.2 k h.1
  have e := le_antisymm h1.1 h2.1
  exact le_antisymm (h1.2 e) (h2.2 e.symm)

/-- Either the target is the nearest stamp, within 1 ms, or no stamp is within 1 ms. -/
theorem target_cases {t : ℚ} {ks : List ℚ} (hs : ks.Pairwise (· < ·)) :
    (NearKey t (target ks t) ks ∧ |target ks t - t| ≤ 1 / 1000) ∨
      (target ks t = t ∧ ∀ k ∈ ks, 1 / 1000 < |k - t|) := by
  cases h : nearestStamp t ks with
  | none =>
    right
    have : ks = [] := by
      by_contra hne
      obtain ⟨k, hk⟩ := nearestStamp_isSome (t := t) hne
      rw [hk] at h; simp at h
    subst this
    exact ⟨by simp [target, nearestStamp], by simp⟩
  | some k =>
    have hk := nearestStamp_near hs h
    by_cases hle : |k - t| ≤ 1 / 1000
    · have e : target ks t = k := by unfold target; rw [h]; simp only; rw [if_pos hle]
      left; rw [e]; exact ⟨hk, hle⟩
    · have e : target ks t = t := by unfold target; rw [h]; simp only; rw [if_neg hle]
      right; exact ⟨e, fun q hq => (not_le.1 hle).trans_le (hk.2 q hq).1⟩

theorem target_close {t : ℚ} {ks : List ℚ} (hs : ks.Pairwise (· < ·)) :
    |target ks t - t| ≤ 1 / 1000 := by
  rcases target_cases hs (t := t) with h | h
  · exact h.2
  · rw [h.1]; norm_num

theorem target_mem {t : ℚ} {ks : List ℚ} (hs : ks.Pairwise (· < ·)) :
    target ks t ∈ ks ∨ target ks t = t := by
  rcases target_cases hs (t := t) with h | h
  · exact Or.inl h.1.1
  · exact Or.inr h.1

theorem target_lt {t t' : ℚ} {ks : List ℚ} (hs : ks.Pairwise (· < ·)) (h : t < t')
    (hsep : 1 / 500 < |t - t'|) : target ks t < target ks t' := by
  have h1 := abs_le.1 (target_close hs (t := t))
  have h2 := abs_le.1 (target_close hs (t := t'))
  rw [abs_of_neg (by linarith)] at hsep
  linarith [h1.1, h1.2, h2.1, h2.2]

theorem target_ne {t t' : ℚ} {ks : List ℚ} (hs : ks.Pairwise (· < ·))
    (hsep : 1 / 500 < |t - t'|) : target ks t ≠ target ks t' := by
  rcases lt_trichotomy t t' with h | h | h
  · exact (target_lt hs h hsep).ne
  · subst h; norm_num at hsep
  · rw [abs_sub_comm] at hsep; exact (target_lt hs h hsep).ne'

theorem target_append {t k : ℚ} {ks : List ℚ} (hs : (ks ++ [k]).Pairwise (· < ·))
    {a : ℚ} (ha : a ∈ ks) (hta : t ≤ a) : target (ks ++ [k]) t = target ks t := by
  have hs0 : ks.Pairwise (· < ·) := (List.pairwise_append.1 hs).1
  have hak : a < k := (List.pairwise_append.1 hs).2.2 a ha k (by simp)
  have hfar : |a - t| < |k - t| := by
    rw [abs_of_nonneg (by linarith), abs_of_nonneg (by linarith)]; linarith
  rcases target_cases hs (t := t) with h | h <;> rcases target_cases hs0 (t := t) with h' | h'
  · refine h.1.unique ?_
    refine ⟨by simp [h'.1.1], ?_⟩
    intro q hq
    rcases List.mem_append.1 hq with hq | hq
    · exact h'.1.2 q hq
    · simp only [List.mem_singleton] at hq
      subst hq
      have := (h'.1.2 a ha).1
      exact ⟨this.trans hfar.le, fun e => absurd hfar (by rw [← e]; exact not_lt.2 this)⟩
  · exfalso
    rcases List.mem_append.1 h.1.1 with hq | hq
    · exact absurd h.2 (not_le.2 (h'.2 _ hq))
    · simp only [List.mem_singleton] at hq
      have := h.2
      rw [hq] at this
      have := h'.2 a ha
      linarith
  · exfalso
    have := h.2 _ (List.mem_append_left _ h'.1.1)
    linarith [h'.2]
  · rw [h.1, h'.1]

/-- The target is nearest among all stamps and targets of separated measurements. -/
theorem near_of {ks all : List ℚ} (hs : ks.Pairwise (· < ·)) {hist : List (Meas M)} {t : ℚ}
    (hsep : ∀ m ∈ hist, m.time = t ∨ 1 / 500 < |m.time - t|)
    (hall : ∀ k ∈ all, k ∈ ks ∨ ∃ m ∈ hist, target ks m.time = k)
    (hmem : target ks t ∈ all) : NearKey t (target ks t) all := by
  refine ⟨hmem, ?_⟩
  intro k hk
  rcases hall k hk with h | ⟨m, hm, rfl⟩
  · rcases target_cases hs (t := t) with h' | h'
    · exact h'.1.2 k h
    · rw [h'.1]
      have := h'.2 k h
      refine ⟨by rw [sub_self, abs_zero]; exact abs_nonneg _, ?_⟩
      intro e
      rw [sub_self, abs_zero] at e
      rw [← e] at this
      norm_num at this
  · rcases hsep m hm with e | h
    · rw [e]; exact ⟨le_refl _, fun _ => le_refl _⟩
    · have h1 := target_close hs (t := t)
      have h2 := target_close hs (t := m.time)
      have h3 : |m.time - t| ≤ |target ks m.time - t| + |target ks m.time - m.time| := by
        have := abs_sub_le m.time (target ks m.time) t
        rw [abs_sub_comm m.time (target ks m.time)] at this
        linarith
      have : |target ks t - t| < |target ks m.time - t| := by
        norm_num at *
        linarith
      exact ⟨this.le, fun e => absurd this (by rw [e]; exact lt_irrefl _)⟩

/-! ### Measurements by target -/

theorem measAt_append {ks : List ℚ} {hist : List (Meas M)} {m : Meas M}
    (h : ∀ m' ∈ hist, target ks m'.time ≠ target ks m.time) (k : ℚ) :
    measAt ks (hist ++ [m]) k =
      if target ks m.time = k then some m.body else measAt ks hist k := by
  unfold measAt
  rw [List.find?_append]
  split
  · rename_i e
    have : hist.find? (fun m => target ks m.time = k) = none := by
      rw [List.find?_eq_none]
      intro m' hm'
      simp only [decide_eq_true_eq]
      rw [← e]; exact h m' hm'
    simp [this, e]
  · rename_i e
    cases hist.find? (fun m => target ks m.time = k) with
    | none => simp [e]
    | some m' => simp

theorem measAt_none {ks : List ℚ} {hist : List (Meas M)} {k : ℚ}
    (h : ∀ m ∈ hist, target ks m.time ≠ k) : measAt ks hist k = none := by
  unfold measAt
  rw [List.find?_eq_none.2]
  · rfl
  · intro m hm; simpa using h m hm

theorem measAt_ne_none {ks : List ℚ} {hist : List (Meas M)} {k : ℚ}
    (h : measAt ks hist k ≠ none) : ∃ m ∈ hist, target ks m.time = k := by
  by_contra hc
  push Not at hc
  exact h (measAt_none hc)

theorem measAt_mem {ks : List ℚ} (hs : ks.Pairwise (· < ·)) {hist : List (Meas M)}
    (hsep : hist.Pairwise (fun a b => 1 / 500 < |a.time - b.time|)) {m : Meas M} (hm : m ∈ hist) :
    measAt ks hist (target ks m.time) = some m.body := by
  induction hist with
  | nil => simp at hm
  | cons a hist ih =>
    rw [List.pairwise_cons] at hsep
    unfold measAt
    rw [List.find?_cons]
    rcases List.mem_cons.1 hm with rfl | hm
    · simp
    · have : target ks a.time ≠ target ks m.time := target_ne hs (hsep.1 m hm)
      simp only [this, decide_false]
      exact ih hsep.2 hm

theorem measAt_congr {ks ks' : List ℚ} {hist : List (Meas M)} {k : ℚ}
    (h : ∀ m ∈ hist, target ks' m.time = target ks m.time) :
    measAt ks' hist k = measAt ks hist k := by
  unfold measAt
  congr 1
  induction hist with
  | nil => rfl
  | cons a hist ih =>
    rw [List.find?_cons, List.find?_cons, h a (by simp), ih (fun m hm => h m (by simp [hm]))]

/-! ### The IMU signal -/
section
variable [AddCommGroup A] [Module ℚ A] [AddCommGroup W] [Module ℚ W]

theorem between_left {r r' : ℚ × Input A W} (h : r.1 < r'.1) : between r r' r.1 = r.2 := by
  have : r'.1 - r.1 ≠ 0 := by linarith
  unfold between
  simp [div_self this]

theorem between_right {r r' : ℚ × Input A W} (h : r.1 < r'.1) : between r r' r'.1 = r'.2 := by
  have : r'.1 - r.1 ≠ 0 := by linarith
  unfold between
  simp [div_self this]

theorem lerp_aux {V : Type} [AddCommGroup V] [Module ℚ V] (x y : V) {a b l r : ℚ} (hab : a < b)
    (hlr : l < r) (t : ℚ) :
    lerp l r (((b - l) / (b - a)) • x + ((l - a) / (b - a)) • y)
      (((b - r) / (b - a)) • x + ((r - a) / (b - a)) • y) t =
    ((b - t) / (b - a)) • x + ((t - a) / (b - a)) • y := by
  have h1 : b - a ≠ 0 := by linarith
  have h2 : r - l ≠ 0 := by linarith
  unfold lerp
  match_scalars <;> field_simp <;> ring

theorem lerp_between {r r' : ℚ × Input A W} (h : r.1 < r'.1) {tl tr : ℚ} (hlr : tl < tr) (t : ℚ) :
    lerpInput tl tr (between r r' tl) (between r r' tr) t = between r r' t := by
  unfold lerpInput between
  simp only [Input.mk.injEq]
  exact ⟨lerp_aux _ _ h hlr t, lerp_aux _ _ h hlr t⟩

theorem inputFrom_head {r : ℚ × Input A W} {rs : List (ℚ × Input A W)}
    (hs : ((r :: rs).map Prod.fst).Pairwise (· < ·)) : inputFrom r rs r.1 = r.2 := by
  cases rs with
  | nil => rfl
  | cons r' rs =>
    simp only [List.map_cons, List.pairwise_cons] at hs
    have h : r.1 < r'.1 := hs.1 r'.1 (by simp)
    unfold inputFrom
    rw [if_pos h.le, between_left h]

theorem inputFrom_between {pre post : List (ℚ × Input A W)} {r a b : ℚ × Input A W} {t : ℚ}
    (hs : ((r :: (pre ++ a :: b :: post)).map Prod.fst).Pairwise (· < ·))
    (h1 : a.1 ≤ t) (h2 : t ≤ b.1) :
    inputFrom r (pre ++ a :: b :: post) t = between a b t := by
  induction pre generalizing r with
  | nil =>
    simp only [List.nil_append, List.map_cons, List.pairwise_cons] at hs
    have hra : r.1 < a.1 := hs.1 a.1 (by simp)
    have hab : a.1 < b.1 := hs.2.1 b.1 (by simp)
    change (if t ≤ a.1 then between r a t else if t ≤ b.1 then between a b t else _) = _
    rw [if_pos h2]
    split
    · rename_i h
      have e : t = a.1 := le_antisymm h h1
      rw [e, between_right hra, between_left hab]
    · rfl
  | cons c pre ih =>
    simp only [List.cons_append, List.map_cons, List.pairwise_cons] at hs
    have hca : c.1 < a.1 := hs.2.1 a.1 (by simp)
    change (if t ≤ c.1 then between r c t else inputFrom c (pre ++ a :: b :: post) t) = _
    rw [if_neg (by linarith)]
    refine ih ?_
    simp only [List.map_cons, List.pairwise_cons]
    exact hs.2

theorem inputAt_between {imu pre post : List (ℚ × Input A W)} {a b : ℚ × Input A W} {t : ℚ}
    (he : imu = pre ++ a :: b :: post)
    (hs : (imu.map Prod.fst).Pairwise (· < ·)) (h1 : a.1 ≤ t) (h2 : t ≤ b.1) :
    inputAt imu t = between a b t := by
  subst he
  cases pre with
  | nil =>
    change (if t ≤ b.1 then between a b t else _) = _
    rw [if_pos h2]
  | cons c pre => exact inputFrom_between hs h1 h2

omit [AddCommGroup A] [Module ℚ A] [AddCommGroup W] [Module ℚ W] in
/-- Two neighbouring readings around a time. -/
theorem bracket {imu : List (ℚ × Input A W)} {t : ℚ} (hlen : 2 ≤ imu.length)
    (h1 : ∀ r ∈ imu.head?, r.1 ≤ t) (h2 : ∀ r ∈ imu.getLast?, t ≤ r.1) :
    ∃ pre a b post, imu = pre ++ a :: b :: post ∧ a.1 ≤ t ∧ t ≤ b.1 := by
  induction imu with
  | nil => simp at hlen
  | cons a l ih =>
    cases l with
    | nil => simp at hlen
    | cons b l =>
      by_cases h : t ≤ b.1
      · exact ⟨[], a, b, l, rfl, h1 a (by simp), h⟩
      · cases l with
        | nil => exact absurd (h2 b (by simp)) h
        | cons c l =>
          obtain ⟨pre, x, y, post, e, hx, hy⟩ := ih (by simp)
            (by intro r hr; simp at hr; subst hr; exact (not_le.1 h).le)
            (by intro r hr; exact h2 r (by simpa using hr))
          exact ⟨a :: pre, x, y, post, by simp [e], hx, hy⟩

theorem inputAt_append {imu : List (ℚ × Input A W)} {x : ℚ × Input A W} {t : ℚ}
    (hs : ((imu ++ [x]).map Prod.fst).Pairwise (· < ·)) (hne : imu ≠ [])
    (h1 : ∀ r ∈ imu.head?, r.1 ≤ t) (h2 : ∀ r ∈ imu.getLast?, t ≤ r.1) :
    inputAt (imu ++ [x]) t = inputAt imu t := by
  have hs0 : (imu.map Prod.fst).Pairwise (· < ·) := by
    rw [List.map_append] at hs
    exact (List.pairwise_append.1 hs).1
  match imu, hne, h1, h2, hs, hs0 with
  | [r], _, h1, h2, hs, _ =>
    have e : t = r.1 := le_antisymm (h2 r (by simp)) (h1 r (by simp))
    subst e
    change inputFrom r [x] r.1 = r.2
    exact inputFrom_head hs
  | a :: b :: l, _, h1, h2, hs, hs0 =>
    obtain ⟨pre, p, q, post, e, hp, hq⟩ := bracket (imu := a :: b :: l) (t := t) (by simp) h1 h2
    rw [inputAt_between e hs0 hp hq]
    exact inputAt_between (pre := pre) (post := post ++ [x]) (by rw [e]; simp) hs hp hq

theorem inputAt_last {imu : List (ℚ × Input A W)} {x : ℚ × Input A W}
    (hs : ((imu ++ [x]).map Prod.fst).Pairwise (· < ·)) :
    inputAt (imu ++ [x]) x.1 = x.2 := by
  rcases List.eq_nil_or_concat imu with rfl | ⟨l, y, rfl⟩
  · rfl
  · rw [List.concat_eq_append] at hs ⊢
    have hyx : y.1 < x.1 := by
      rw [List.map_append] at hs
      exact (List.pairwise_append.1 hs).2.2 y.1 (by simp) x.1 (by simp)
    rw [inputAt_between (pre := l) (a := y) (b := x) (post := []) (by simp) hs hyx.le (le_refl _),
      between_right hyx]

end
end MSF
