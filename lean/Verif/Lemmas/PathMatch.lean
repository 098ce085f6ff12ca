import Verif.Model.PathMatch
import Verif.Spec.PathMatch
/-!
# Lemmas about `path.Match`
-/
namespace Wamp.PathMatch

theorem toNat_ofNat {n : Nat} (h : n < 256) : (UInt8.ofNat n).toNat = n := by
  simp [UInt8.toNat_ofNat']; omega

theorem eq_ofNat {b : UInt8} {n : Nat} (h : b.toNat = n) : b = UInt8.ofNat n := by
  rw [← h]; exact (UInt8.ofNat_toNat).symm

theorem within_iff {b : UInt8} {lo hi : Nat} : within b lo hi = true ↔ lo ≤ b.toNat ∧ b.toNat ≤ hi := by
  simp [within]

theorem decode_utf8 {r : Nat} (h : scalar r) (t : Str) : decodeRune (utf8 r ++ t) = (r, (utf8 r).length) := by
  unfold scalar at h
  unfold utf8
  split
  · rename_i h1
    have : (UInt8.ofNat r).toNat = r := toNat_ofNat (by omega)
    simp [decodeRune, this, h1]
  · split
    · rename_i h1 h2
      have e1 : (UInt8.ofNat (0xc0 + r / 0x40)).toNat = 0xc0 + r / 0x40 := toNat_ofNat (by omega)
      have e2 : (UInt8.ofNat (0x80 + r % 0x40)).toNat = 0x80 + r % 0x40 := toNat_ofNat (by omega)
      generalize UInt8.ofNat (0xc0 + r / 0x40) = a at *
      generalize UInt8.ofNat (0x80 + r % 0x40) = b at *
      have w1 : within a 0xc2 0xdf = true := within_iff.2 (by omega)
      have w2 : within b 0x80 0xbf = true := within_iff.2 (by omega)
      have h3 : ¬ a.toNat < 0x80 := by omega
      simp only [List.cons_append, List.nil_append, decodeRune, h3, if_false, w1, w2, if_true, List.length_cons, List.length_nil]
      rw [e1, e2]
      exact Prod.ext (by simp only; omega) rfl
    · split
      · rename_i h1 h2 h3
        have e1 : (UInt8.ofNat (0xe0 + r / 0x1000)).toNat = 0xe0 + r / 0x1000 := toNat_ofNat (by omega)
        have e2 : (UInt8.ofNat (0x80 + r / 0x40 % 0x40)).toNat = 0x80 + r / 0x40 % 0x40 := toNat_ofNat (by omega)
        have e3 : (UInt8.ofNat (0x80 + r % 0x40)).toNat = 0x80 + r % 0x40 := toNat_ofNat (by omega)
        generalize UInt8.ofNat (0xe0 + r / 0x1000) = a at *
        generalize UInt8.ofNat (0x80 + r / 0x40 % 0x40) = b at *
        generalize UInt8.ofNat (0x80 + r % 0x40) = c at *
        have w0 : within a 0xc2 0xdf = false := by
          rw [Bool.eq_false_iff, Ne, within_iff]; omega
        have w1 : within a 0xe0 0xef = true := within_iff.2 (by omega)
        have w2 : within b (loSecond a) (hiSecond a) = true := by
          apply within_iff.2; unfold loSecond hiSecond; (repeat' split) <;> omega
        have w3 : within c 0x80 0xbf = true := within_iff.2 (by omega)
        have h4 : ¬ a.toNat < 0x80 := by omega
        simp only [List.cons_append, List.nil_append, decodeRune, h4, if_false, w0, Bool.false_eq_true, w1, w2, w3, Bool.and_self,
          if_true, List.length_cons, List.length_nil]
        rw [e1, e2, e3]
        exact Prod.ext (by simp only; omega) rfl
      · rename_i h1 h2 h3
        have e1 : (UInt8.ofNat (0xf0 + r / 0x40000)).toNat = 0xf0 + r / 0x40000 := toNat_ofNat (by omega)
        have e2 : (UInt8.ofNat (0x80 + r / 0x1000 % 0x40)).toNat = 0x80 + r / 0x1000 % 0x40 := toNat_ofNat (by omega)
        have e3 : (UInt8.ofNat (0x80 + r / 0x40 % 0x40)).toNat = 0x80 + r / 0x40 % 0x40 := toNat_ofNat (by omega)
        have e4 : (UInt8.ofNat (0x80 + r % 0x40)).toNat = 0x80 + r % 0x40 := toNat_ofNat (by omega)
        generalize UInt8.ofNat (0xf0 + r / 0x40000) = a at *
        generalize UInt8.ofNat (0x80 + r / 0x1000 % 0x40) = b at *
        generalize UInt8.ofNat (0x80 + r / 0x40 % 0x40) = c at *
        generalize UInt8.ofNat (0x80 + r % 0x40) = d at *
        have w0 : within a 0xc2 0xdf = false := by
          rw [Bool.eq_false_iff, Ne, within_iff]; omega
        have w0' : within a 0xe0 0xef = false := by
          rw [Bool.eq_false_iff, Ne, within_iff]; omega
        have w1 : within a 0xf0 0xf4 = true := within_iff.2 (by omega)
        have w2 : within b (loSecond a) (hiSecond a) = true := by
          apply within_iff.2; unfold loSecond hiSecond; (repeat' split) <;> omega
        have w3 : within c 0x80 0xbf = true := within_iff.2 (by omega)
        have w4 : within d 0x80 0xbf = true := within_iff.2 (by omega)
        have h4 : ¬ a.toNat < 0x80 := by omega
        simp only [List.cons_append, List.nil_append, decodeRune, h4, if_false, w0, w0', Bool.false_eq_true, w1, w2, w3, w4, Bool.and_self,
          if_true, List.length_cons, List.length_nil]
        rw [e1, e2, e3, e4]
        exact Prod.ext (by simp only; omega) rfl

/-- What `decodeRune` reads without complaint is the encoding of a character. -/
theorem decode_inv {s : Str} (hs : s ≠ []) (h : ¬((decodeRune s).1 = 0xfffd ∧ (decodeRune s).2 = 1)) :
    scalar (decodeRune s).1 ∧ s = utf8 (decodeRune s).1 ++ s.drop (decodeRune s).2 := by
  unfold decodeRune at h ⊢
  split
  · exact absurd rfl hs
  · rename_i a s1
    split
    · rename_i h1
      refine ⟨.inl (by simp only; omega), ?_⟩
      simp only [utf8, h1, if_true, List.drop_succ_cons, List.drop_zero, List.cons_append, List.nil_append, UInt8.ofNat_toNat]
    · rename_i h1
      simp only [h1, if_false] at h
      split
      · simp at h
      · rename_i b s2
        simp only at h
        split
        · rename_i h2
          simp only [h2, if_true] at h
          split
          · rename_i h3
            rw [within_iff] at h2 h3
            refine ⟨.inl (by simp only; omega), ?_⟩
            have hb := b.toNat_lt
            generalize hr : (a.toNat - 0xc0) * 0x40 + (b.toNat - 0x80) = r
            have q1 : ¬ r < 0x80 := by omega
            have q2 : r < 0x800 := by omega
            have ea := eq_ofNat (b := a) (n := 0xc0 + r / 0x40) (by omega)
            have eb := eq_ofNat (b := b) (n := 0x80 + r % 0x40) (by omega)
            simp only [utf8, q1, q2, if_true, if_false, ← ea, ← eb, List.drop_succ_cons, List.drop_zero, List.cons_append, List.nil_append]
          · rename_i h3
            simp [h3] at h
        · rename_i h2
          simp only [h2, Bool.false_eq_true, if_false] at h
          split
          · simp at h
          · rename_i c s3
            simp only at h
            split
            · rename_i h3
              simp only [h3, if_true] at h
              split
              · rename_i h4
                rw [Bool.and_eq_true, within_iff, within_iff] at h4
                rw [within_iff] at h3
                obtain ⟨⟨h4, h5⟩, h6, h7⟩ := h4
                unfold loSecond at h4
                unfold hiSecond at h5
                have x1 : 0x80 ≤ b.toNat := by (repeat' split at h4) <;> omega
                have x2 : a.toNat = 0xe0 → 0xa0 ≤ b.toNat := by intro e; rw [if_pos e] at h4; exact h4
                have x3 : b.toNat ≤ 0xbf := by (repeat' split at h5) <;> omega
                have x4 : a.toNat = 0xed → b.toNat ≤ 0x9f := by intro e; rw [if_pos e] at h5; exact h5
                clear h4 h5
                generalize hr : (a.toNat - 0xe0) * 0x1000 + (b.toNat - 0x80) * 0x40 + (c.toNat - 0x80) = r
                have q1 : ¬ r < 0x80 := by omega
                have q2 : ¬ r < 0x800 := by omega
                have q3 : r < 0x10000 := by omega
                have ea := eq_ofNat (b := a) (n := 0xe0 + r / 0x1000) (by omega)
                have eb := eq_ofNat (b := b) (n := 0x80 + r / 0x40 % 0x40) (by omega)
                have ec := eq_ofNat (b := c) (n := 0x80 + r % 0x40) (by omega)
                refine ⟨by unfold scalar; omega, ?_⟩
                simp only [utf8, q1, q2, q3, if_true, if_false, ← ea, ← eb, ← ec, List.drop_succ_cons, List.drop_zero, List.cons_append,
                  List.nil_append]
              · rename_i h4
                simp [h4] at h
            · rename_i h3
              simp only [h3, Bool.false_eq_true, if_false] at h
              split
              · simp at h
              · rename_i d s4
                simp only at h
                split
                · rename_i h4
                  rw [Bool.and_eq_true, Bool.and_eq_true, Bool.and_eq_true, within_iff, within_iff, within_iff, within_iff] at h4
                  obtain ⟨⟨⟨⟨y1, y2⟩, h4, h5⟩, h6, h7⟩, h8, h9⟩ := h4
                  unfold loSecond at h4
                  unfold hiSecond at h5
                  have x1 : 0x80 ≤ b.toNat := by (repeat' split at h4) <;> omega
                  have x2 : a.toNat = 0xf0 → 0x90 ≤ b.toNat := by intro e; rw [if_neg (by omega), if_pos e] at h4; exact h4
                  have x3 : b.toNat ≤ 0xbf := by (repeat' split at h5) <;> omega
                  have x4 : a.toNat = 0xf4 → b.toNat ≤ 0x8f := by intro e; rw [if_neg (by omega), if_pos e] at h5; exact h5
                  clear h4 h5
                  generalize hr : (a.toNat - 0xf0) * 0x40000 + (b.toNat - 0x80) * 0x1000 + (c.toNat - 0x80) * 0x40 + (d.toNat - 0x80) = r
                  have q1 : ¬ r < 0x80 := by omega
                  have q2 : ¬ r < 0x800 := by omega
                  have q3 : ¬ r < 0x10000 := by omega
                  have ea := eq_ofNat (b := a) (n := 0xf0 + r / 0x40000) (by omega)
                  have eb := eq_ofNat (b := b) (n := 0x80 + r / 0x1000 % 0x40) (by omega)
                  have ec := eq_ofNat (b := c) (n := 0x80 + r / 0x40 % 0x40) (by omega)
                  have ed := eq_ofNat (b := d) (n := 0x80 + r % 0x40) (by omega)
                  refine ⟨by unfold scalar; omega, ?_⟩
                  simp only [utf8, q1, q2, q3, if_false, ← ea, ← eb, ← ec, ← ed, List.drop_succ_cons, List.drop_zero, List.cons_append,
                    List.nil_append]
                · rename_i h4
                  simp [h4] at h

theorem utf8_ne_nil (r : Nat) : utf8 r ≠ [] := by
  unfold utf8; repeat' split
  all_goals simp

/-- The first byte of an encoded character, and the others, which are no ASCII characters. -/
theorem utf8_bytes {r : Nat} (h : scalar r) :
    ∃ b t, utf8 r = b :: t ∧ (b.toNat < 0x80 → r = b.toNat) ∧ ∀ c ∈ t, 0x80 ≤ c.toNat := by
  unfold scalar at h
  unfold utf8
  split
  · exact ⟨_, _, rfl, fun _ => (toNat_ofNat (by omega)).symm, by simp⟩
  · split
    · refine ⟨_, _, rfl, fun h => ?_, ?_⟩
      · rw [toNat_ofNat (by omega)] at h; omega
      · intro c hc
        simp only [List.mem_singleton] at hc
        subst hc
        rw [toNat_ofNat (by omega)]; omega
    · split
      · refine ⟨_, _, rfl, fun h => ?_, ?_⟩
        · rw [toNat_ofNat (by omega)] at h; omega
        · intro c hc
          simp only [List.mem_cons, List.not_mem_nil, or_false] at hc
          rcases hc with rfl | rfl <;> (rw [toNat_ofNat (by omega)]; omega)
      · refine ⟨_, _, rfl, fun h => ?_, ?_⟩
        · rw [toNat_ofNat (by omega)] at h; omega
        · intro c hc
          simp only [List.mem_cons, List.not_mem_nil, or_false] at hc
          rcases hc with rfl | rfl | rfl <;> (rw [toNat_ofNat (by omega)]; omega)

/-! ## Character classes -/

theorem charText_cons {r : Nat} {t : Str} (h : CharText r t) : ∃ b t', t = b :: t' ∧ b ≠ 45 ∧ b ≠ 93 := by
  cases h with
  | plain hs h1 h2 h3 =>
    obtain ⟨b, t', e, hb, -⟩ := utf8_bytes hs
    refine ⟨b, t', e, ?_, ?_⟩ <;> rintro rfl <;> have := hb (by decide) <;> simp at this <;> contradiction
  | escaped hs => exact ⟨92, _, rfl, by decide, by decide⟩

theorem getEsc_text {r : Nat} {t u : Str} (h : CharText r t) (hu : u ≠ []) : getEsc (t ++ u) = some (r, u) := by
  have key : ∀ {s : Str}, scalar r → s = utf8 r ++ u → s ≠ [] ∧ decodeRune s = (r, (utf8 r).length) ∧
      s.drop (utf8 r).length = u ∧ ¬(r = 0xfffd ∧ (utf8 r).length = 1) := by
    rintro s hs rfl
    refine ⟨by simp [utf8_ne_nil], decode_utf8 hs u, by simp, ?_⟩
    rintro ⟨rfl, h⟩
    revert h; decide
  cases h with
  | plain hs h1 h2 h3 =>
    obtain ⟨b, t', e, hb, -⟩ := utf8_bytes hs
    have n1 : b ≠ 45 := by rintro rfl; exact h2 (by simpa using hb (by decide))
    have n2 : b ≠ 93 := by rintro rfl; exact h3 (by simpa using hb (by decide))
    have n3 : b ≠ 92 := by rintro rfl; exact h1 (by simpa using hb (by decide))
    obtain ⟨k1, k2, k3, k4⟩ := key hs rfl
    rw [e, List.cons_append] at k1 k2 k3 ⊢
    rw [← e] at k2 k3
    unfold getEsc
    simp only [n1, n2, n3, or_self, if_false, k2, k4, k3, hu, k1]
  | escaped hs =>
    obtain ⟨k1, k2, k3, k4⟩ := key hs rfl
    rw [List.cons_append]
    unfold getEsc
    have n1 : ¬((92 : UInt8) = 45 ∨ (92 : UInt8) = 93) := by decide
    simp only [n1, if_false, if_true, k1, k2, k4, k3, hu]

theorem getEsc_inv {k u : Str} {r : Nat} (h : getEsc k = some (r, u)) : ∃ t, CharText r t ∧ k = t ++ u ∧ u ≠ [] := by
  unfold getEsc at h
  split at h
  · cases h
  · rename_i c t
    split at h
    · cases h
    · rename_i hc
      simp only at h
      by_cases h92 : c = 92
      · subst h92
        simp only [if_true] at h
        split at h
        · cases h
        · rename_i hne
          split at h
          · cases h
          · rename_i hbad
            split at h
            · cases h
            · rename_i hu
              cases h
              obtain ⟨d1, d2⟩ := decode_inv hne hbad
              exact ⟨_, .escaped d1, by rw [List.cons_append, ← d2], hu⟩
      · simp only [h92, if_false] at h
        split at h
        · cases h
        · rename_i hne
          split at h
          · cases h
          · rename_i hbad
            split at h
            · cases h
            · rename_i hu
              cases h
              obtain ⟨d1, d2⟩ := decode_inv hne hbad
              refine ⟨_, .plain d1 ?_ ?_ ?_, d2, hu⟩
              all_goals
                intro e
                rw [e] at d2
                have : c = _ := (List.cons.inj d2).1
                simp only [not_or] at hc
                first | exact h92 this | exact hc.1 this | exact hc.2 this

/-- The character is in one of the ranges. -/
def hits (rs : List (Nat × Nat)) (r : Nat) : Bool := rs.any fun lh => decide (lh.1 ≤ r) && decide (r ≤ lh.2)

theorem rangesText_cons {rs : List (Nat × Nat)} {t : Str} (h : RangesText rs t) (hne : rs ≠ []) :
    ∃ b t', t = b :: t' ∧ b ≠ 45 ∧ b ≠ 93 := by
  cases h with
  | nil => exact absurd rfl hne
  | one hc _ =>
    obtain ⟨b, t', rfl, h⟩ := charText_cons hc
    exact ⟨b, _, rfl, h⟩
  | span hc _ _ =>
    obtain ⟨b, t', rfl, h⟩ := charText_cons hc
    exact ⟨b, _, rfl, h⟩

theorem rangesText_next {rs : List (Nat × Nat)} {t : Str} (h : RangesText rs t) (p : Str) :
    ∃ d u, t ++ 93 :: p = d :: u ∧ d ≠ 45 := by
  by_cases hne : rs = []
  · subst hne
    cases h
    exact ⟨93, p, rfl, by decide⟩
  · obtain ⟨b, t', rfl, hb, -⟩ := rangesText_cons h hne
    exact ⟨b, _, rfl, hb⟩

theorem ranges_text {rs : List (Nat × Nat)} {t : Str} (h : RangesText rs t) (r n : Nat) (hit : Bool) (p : Str)
    (hn : 0 < n ∨ rs ≠ []) : ranges (t ++ 93 :: p) r n hit = .ok (hit || hits rs r, p) := by
  induction h generalizing n hit with
  | nil =>
    have hn : 0 < n := by simpa using hn
    unfold ranges
    simp [hn, hits]
  | @one c t u rs hc hr ih =>
    obtain ⟨b, t', e, -, hb⟩ := charText_cons hc
    obtain ⟨d, v, e2, hd⟩ := rangesText_next hr p
    have hg : getEsc (t ++ (d :: v)) = some (c, d :: v) := getEsc_text hc (by simp)
    have ih := ih (n + 1) (hit || (decide (c ≤ r) && decide (r ≤ c))) (.inl (Nat.succ_pos n))
    rw [List.append_assoc, e2] at *
    rw [ranges.eq_def]
    have hh : ¬(0 < n ∧ (t ++ d :: v).head? = some 93) := by
      rw [e]; simp [hb]
    rw [if_neg hh]
    split
    · rename_i h; rw [hg] at h; cases h
    · rename_i lo k h
      rw [hg] at h
      cases h
      simp only [hd, if_false]
      rw [ih]
      simp [hits, Bool.or_assoc]
  | @span lo hi t t' u rs hc hc' hr ih =>
    obtain ⟨b, t1, e, -, hb⟩ := charText_cons hc
    have hg : getEsc (t ++ (45 :: (t' ++ (u ++ 93 :: p)))) = some (lo, 45 :: (t' ++ (u ++ 93 :: p))) := getEsc_text hc (by simp)
    have hg' : getEsc (t' ++ (u ++ 93 :: p)) = some (hi, u ++ 93 :: p) := getEsc_text hc' (by simp)
    have ih := ih (n + 1) (hit || (decide (lo ≤ r) && decide (r ≤ hi))) (.inl (Nat.succ_pos n))
    have e3 : (t ++ 45 :: (t' ++ u)) ++ 93 :: p = t ++ (45 :: (t' ++ (u ++ 93 :: p))) := by simp
    rw [e3, ranges.eq_def]
    have hh : ¬(0 < n ∧ (t ++ (45 :: (t' ++ (u ++ 93 :: p)))).head? = some 93) := by
      rw [e]; simp [hb]
    rw [if_neg hh]
    split
    · rename_i h; rw [hg] at h; cases h
    · rename_i lo' k h
      rw [hg] at h
      cases h
      simp only [if_true]
      split
      · rename_i h; rw [hg'] at h; cases h
      · rename_i hi' k' h
        rw [hg'] at h
        cases h
        rw [ih]
        simp [hits, Bool.or_assoc]

theorem ranges_inv {k rest : Str} {r n : Nat} {hit m : Bool} (h : ranges k r n hit = .ok (m, rest)) :
    ∃ rs t, RangesText rs t ∧ k = t ++ 93 :: rest ∧ (0 < n ∨ rs ≠ []) := by
  fun_induction ranges k r n hit with
  | case1 k n hit hk =>
    cases h
    refine ⟨[], [], .nil, ?_, .inl hk.1⟩
    obtain ⟨-, hk⟩ := hk
    cases k with
    | nil => cases hk
    | cons c k => cases hk; rfl
  | case2 => cases h
  | case3 => cases h
  | case4 => cases h
  | case5 =>
    rename_i h2 _ h1 ih
    obtain ⟨rs, t, i1, i2, -⟩ := ih h
    obtain ⟨t1, g1, e1, -⟩ := getEsc_inv h1
    obtain ⟨t2, g2, e2, -⟩ := getEsc_inv h2
    refine ⟨_, _, .span g1 g2 i1, ?_, .inr (by simp)⟩
    rw [e1, e2, i2]; simp
  | case6 =>
    rename_i _ h1 ih
    obtain ⟨rs, t, i1, i2, -⟩ := ih h
    obtain ⟨t1, g1, e1, -⟩ := getEsc_inv h1
    refine ⟨_, _, .one g1 i1, ?_, .inr (by simp)⟩
    rw [e1, i2]; simp

theorem ranges_no_panic (k : Str) (r n : Nat) (hit : Bool) : ranges k r n hit ≠ .panic := by
  fun_induction ranges k r n hit with
  | case1 => simp
  | case2 => simp
  | case3 =>
    rename_i h1 _
    obtain ⟨_, _, _, h⟩ := getEsc_inv h1
    exact absurd rfl h
  | case4 => simp
  | case5 => rename_i ih; exact ih
  | case6 => rename_i ih; exact ih

/-! ## Chunks -/

/-- What `matchChunk` does, on terms. -/
def eat : List Item → Str → Option Str
  | [], s => some s
  | _ :: _, [] => none
  | .lit b :: is, c :: s => if b = c then eat is s else none
  | .any :: is, c :: s => if c = 47 then none else eat is ((c :: s).drop (decodeRune (c :: s)).2)
  | .cls neg rs :: is, c :: s =>
    if hits rs (decodeRune (c :: s)).1 = neg then none else eat is ((c :: s).drop (decodeRune (c :: s)).2)
  | .star :: _, _ :: _ => none

theorem matchChunk_text {is : List Item} {p : Str} (h : Text is p) (hs : Item.star ∉ is) (s : Str) (f : Bool) :
    matchChunk p s f = .ok (if f then none else eat is s) := by
  induction h generalizing s f with
  | nil => rw [matchChunk.eq_def]; cases s <;> simp [eat]
  | star => exact absurd (.head _) hs
  | any h ih =>
    have ih := ih (fun h => hs (.tail _ h))
    rw [matchChunk.eq_def]
    have c1 : ¬(63 : UInt8) = 91 := by decide
    simp only [c1, if_false, if_true]
    cases f with
    | true => simp [ih]
    | false =>
      cases s with
      | nil => simp [ih, eat]
      | cons c s => simp [ih, eat]
  | @cls rs t is p h1 h2 h3 h ih =>
    have ih := ih (fun h => hs (.tail _ h))
    obtain ⟨b, t', e, -⟩ := rangesText_cons h2 h1
    have hb : b ≠ 94 := by rintro rfl; rw [e] at h3; exact h3 rfl
    have hc : afterCaret (t ++ 93 :: p) = t ++ 93 :: p := by
      unfold afterCaret; rw [e]; simp [hb]
    have hn : decide ((t ++ 93 :: p).head? = some 94) = false := by rw [e]; simp [hb]
    rw [matchChunk.eq_def]
    simp only [if_true]
    split
    · rename_i hit k hk
      rw [hc, ranges_text h2 _ _ _ _ (.inr h1)] at hk
      cases hk
      rw [ih, hn]
      cases f with
      | true => simp
      | false =>
        cases s with
        | nil => simp [eat]
        | cons c s => simp [eat]
    · rename_i hk; rw [hc, ranges_text h2 _ _ _ _ (.inr h1)] at hk; cases hk
    · rename_i hk; rw [hc, ranges_text h2 _ _ _ _ (.inr h1)] at hk; cases hk
  | @negated rs t is p h1 h2 h ih =>
    have ih := ih (fun h => hs (.tail _ h))
    have hc : afterCaret (94 :: (t ++ 93 :: p)) = t ++ 93 :: p := by simp [afterCaret]
    have hn : decide ((94 :: (t ++ 93 :: p)).head? = some (94 : UInt8)) = true := by simp
    rw [matchChunk.eq_def]
    simp only [if_true]
    split
    · rename_i hit k hk
      rw [hc, ranges_text h2 _ _ _ _ (.inr h1)] at hk
      cases hk
      rw [ih, hn]
      cases f with
      | true => simp
      | false =>
        cases s with
        | nil => simp [eat]
        | cons c s => simp [eat]
    · rename_i hk; rw [hc, ranges_text h2 _ _ _ _ (.inr h1)] at hk; cases hk
    · rename_i hk; rw [hc, ranges_text h2 _ _ _ _ (.inr h1)] at hk; cases hk
  | @lit b is p h1 h2 h3 h4 h ih =>
    have ih := ih (fun h => hs (.tail _ h))
    rw [matchChunk.eq_def]
    simp only [h2, h3, h4, if_false]
    cases f with
    | true => simp [ih]
    | false =>
      cases s with
      | nil => simp [ih, eat]
      | cons c s => simp [ih, eat]
  | @escaped b is p h ih =>
    have ih := ih (fun h => hs (.tail _ h))
    rw [matchChunk.eq_def]
    have c1 : ¬(92 : UInt8) = 91 := by decide
    have c2 : ¬(92 : UInt8) = 63 := by decide
    simp only [c1, c2, if_false, if_true]
    cases f with
    | true => simp [ih]
    | false =>
      cases s with
      | nil => simp [ih, eat]
      | cons c s => simp [ih, eat]

theorem matchChunk_no_panic (p s : Str) (f : Bool) : matchChunk p s f ≠ .panic := by
  fun_induction matchChunk p s f <;> first | assumption | skip
  all_goals first
    | simp; done
    | exact absurd ‹ranges _ _ _ _ = .panic› (ranges_no_panic _ _ _ _)
    | simp_all +zetaDelta

/-! ## Splitting a pattern -/

theorem scan_append (i : Bool) (p : Str) : (scan i p).1 ++ (scan i p).2 = p := by
  fun_induction scan i p <;> simp_all

theorem scan_rest (i : Bool) (p : Str) : (scan i p).2 = [] ∨ (scan i p).2.head? = some 42 := by
  fun_induction scan i p <;> simp_all

theorem scan_again (i : Bool) (p : Str) : scan i (scan i p).1 = ((scan i p).1, []) := by
  fun_induction scan i p <;> simp_all [scan]
  all_goals
    rw [scan.eq_def]
    simp_all

theorem scan_high (i : Bool) {c : UInt8} (h : 0x80 ≤ c.toNat) (p : Str) : scan i (c :: p) = (c :: (scan i p).1, (scan i p).2) := by
  have n1 : c ≠ 92 := by rintro rfl; revert h; decide
  have n2 : c ≠ 91 := by rintro rfl; revert h; decide
  have n3 : c ≠ 93 := by rintro rfl; revert h; decide
  have n4 : c ≠ 42 := by rintro rfl; revert h; decide
  rw [scan.eq_def]
  simp only [n1, n2, n3, n4, if_false]

theorem scan_highs (i : Bool) {t : Str} (h : ∀ c ∈ t, 0x80 ≤ c.toNat) (p : Str) :
    scan i (t ++ p) = (t ++ (scan i p).1, (scan i p).2) := by
  induction t with
  | nil => rfl
  | cons c t ih => rw [List.cons_append, scan_high i (h c (.head _)), ih fun c hc => h c (.tail _ hc)]; rfl

theorem scan_char {r : Nat} {t : Str} (h : CharText r t) (p : Str) : scan true (t ++ p) = (t ++ (scan true p).1, (scan true p).2) := by
  cases h with
  | plain hs h1 h2 h3 =>
    obtain ⟨b, t', e, hb, ht⟩ := utf8_bytes hs
    rw [e, List.cons_append, scan.eq_def]
    have n2 : b ≠ 93 := by rintro rfl; exact h3 (by simpa using hb (by decide))
    have n3 : b ≠ 92 := by rintro rfl; exact h1 (by simpa using hb (by decide))
    simp only [n2, n3, if_false, if_true, scan_highs true ht, List.cons_append, ite_self]
  | escaped hs =>
    obtain ⟨b, t', e, hb, ht⟩ := utf8_bytes hs
    rw [e, List.cons_append, List.cons_append, scan.eq_def]
    simp only [if_true, scan_highs true ht, List.cons_append]

theorem scan_ranges {rs : List (Nat × Nat)} {t : Str} (h : RangesText rs t) (p : Str) :
    scan true (t ++ p) = (t ++ (scan true p).1, (scan true p).2) := by
  induction h with
  | nil => rfl
  | one hc _ ih => rw [List.append_assoc, scan_char hc, ih, List.append_assoc]
  | span hc hc' _ ih =>
    have e : ∀ q : Str, scan true (45 :: q) = (45 :: (scan true q).1, (scan true q).2) := fun q => by
      rw [scan.eq_def]
      simp only [show ¬(45 : UInt8) = 92 by decide, show ¬(45 : UInt8) = 91 by decide, show ¬(45 : UInt8) = 93 by decide,
        show ¬(45 : UInt8) = 42 by decide, if_false]
    rw [List.append_assoc, scan_char hc, List.cons_append, e, List.append_assoc, scan_char hc', ih]
    simp

theorem scan_cls {rs : List (Nat × Nat)} {t : Str} (h : RangesText rs t) (i : Bool) (p : Str) :
    scan i (91 :: (t ++ 93 :: p)) = (91 :: (t ++ 93 :: (scan false p).1), (scan false p).2) := by
  rw [scan.eq_def]
  simp only [show ¬(91 : UInt8) = 92 by decide, if_false, if_true, scan_ranges h]
  have e : scan true (93 :: p) = (93 :: (scan false p).1, (scan false p).2) := by
    rw [scan.eq_def]
    simp only [show ¬(93 : UInt8) = 92 by decide, show ¬(93 : UInt8) = 91 by decide, if_false, if_true]
  rw [e]

theorem scan_neg {rs : List (Nat × Nat)} {t : Str} (h : RangesText rs t) (i : Bool) (p : Str) :
    scan i (91 :: 94 :: (t ++ 93 :: p)) = (91 :: 94 :: (t ++ 93 :: (scan false p).1), (scan false p).2) := by
  have e : scan true (94 :: (t ++ 93 :: p)) = (94 :: (scan true (t ++ 93 :: p)).1, (scan true (t ++ 93 :: p)).2) := by
    rw [scan.eq_def]
    simp only [show ¬(94 : UInt8) = 92 by decide, show ¬(94 : UInt8) = 91 by decide, show ¬(94 : UInt8) = 93 by decide,
      show ¬(94 : UInt8) = 42 by decide, if_false]
  have e2 := scan_cls h i p
  rw [scan.eq_def] at e2 ⊢
  simp only [show ¬(91 : UInt8) = 92 by decide, if_false, if_true, e] at e2 ⊢
  have := Prod.mk.inj e2
  rw [(List.cons.inj this.1).2, this.2]

theorem scan_lit {b : UInt8} (h1 : b ≠ 42) (h2 : b ≠ 92) (h3 : b ≠ 91) (p : Str) :
    scan false (b :: p) = (b :: (scan false p).1, (scan false p).2) := by
  rw [scan.eq_def]
  simp only [h1, h2, h3, if_false, ite_self]

theorem scan_esc (b : UInt8) (p : Str) : scan false (92 :: b :: p) = (92 :: b :: (scan false p).1, (scan false p).2) := by
  rw [scan.eq_def]
  simp only [if_true]

/-- The first chunk of a pattern is the terms up to the next star. -/
theorem scan_text {is : List Item} {p : Str} (h : Text is p) : ∃ is1 is2, is = is1 ++ is2 ∧ Item.star ∉ is1 ∧
    Text is1 (scan false p).1 ∧ Text is2 (scan false p).2 ∧ (is2 = [] ∨ is2.head? = some .star) := by
  induction h with
  | nil => exact ⟨[], [], rfl, by simp, .nil, .nil, .inl rfl⟩
  | @star is p h ih =>
    have e : scan false (42 :: p) = ([], 42 :: p) := by
      rw [scan.eq_def]
      simp only [show ¬(42 : UInt8) = 92 by decide, show ¬(42 : UInt8) = 91 by decide, show ¬(42 : UInt8) = 93 by decide,
        if_false, if_true, Bool.false_eq_true]
    rw [e]
    exact ⟨[], .star :: is, rfl, by simp, .nil, .star h, .inr rfl⟩
  | @any is p h ih =>
    obtain ⟨is1, is2, e, h1, h2, h3, h4⟩ := ih
    rw [scan_lit (by decide) (by decide) (by decide)]
    exact ⟨.any :: is1, is2, by rw [e]; rfl, by simp [h1], .any h2, h3, h4⟩
  | @cls rs t is p h1 h2 h3 h ih =>
    obtain ⟨is1, is2, e, i1, i2, i3, i4⟩ := ih
    rw [scan_cls h2]
    exact ⟨.cls false rs :: is1, is2, by rw [e]; rfl, by simp [i1], .cls h1 h2 h3 i2, i3, i4⟩
  | @negated rs t is p h1 h2 h ih =>
    obtain ⟨is1, is2, e, i1, i2, i3, i4⟩ := ih
    rw [scan_neg h2]
    exact ⟨.cls true rs :: is1, is2, by rw [e]; rfl, by simp [i1], .negated h1 h2 i2, i3, i4⟩
  | @lit b is p h1 h2 h3 h4 h ih =>
    obtain ⟨is1, is2, e, i1, i2, i3, i4⟩ := ih
    rw [scan_lit h1 h3 h4]
    exact ⟨.lit b :: is1, is2, by rw [e]; rfl, by simp [i1], .lit h1 h2 h3 h4 i2, i3, i4⟩
  | @escaped b is p h ih =>
    obtain ⟨is1, is2, e, i1, i2, i3, i4⟩ := ih
    rw [scan_esc]
    exact ⟨.lit b :: is1, is2, by rw [e]; rfl, by simp [i1], .escaped i2, i3, i4⟩

theorem text_append {is js : List Item} {p q : Str} (h : Text is p) (h' : Text js q) : Text (is ++ js) (p ++ q) := by
  induction h with
  | nil => exact h'
  | star _ ih => exact .star ih
  | any _ ih => exact .any ih
  | cls h1 h2 h3 _ ih =>
    have := Text.cls h1 h2 h3 ih
    simpa using this
  | negated h1 h2 _ ih =>
    have := Text.negated h1 h2 ih
    simpa using this
  | lit h1 h2 h3 h4 _ ih => exact .lit h1 h2 h3 h4 ih
  | escaped _ ih => exact .escaped ih

theorem matches_star {is : List Item} {s : Str} : Matches (.star :: is) s ↔ ∃ g t, s = g ++ t ∧ 47 ∉ g ∧ Matches is t := by
  constructor
  · intro h
    generalize hq : Item.star :: is = q at h
    induction h with
    | done => cases hq
    | one h => cases hq; exact absurd h (by simp [Item.accepts])
    | none h => cases hq; exact ⟨[], _, rfl, by simp, h⟩
    | more hc _ ih =>
      obtain ⟨g, t, rfl, hg, ht⟩ := ih hq
      exact ⟨_ :: g, t, rfl, by simp [hg, Ne.symm hc], ht⟩
  · rintro ⟨g, t, rfl, hg, ht⟩
    induction g with
    | nil => exact .none ht
    | cons c g ih =>
      simp only [List.mem_cons, not_or] at hg
      exact .more (fun e => hg.1 e.symm) (ih hg.2)

theorem matches_star_star {is : List Item} {s : Str} : Matches (.star :: .star :: is) s ↔ Matches (.star :: is) s := by
  refine ⟨fun h => ?_, .none⟩
  obtain ⟨g, t, rfl, hg, h⟩ := matches_star.1 h
  obtain ⟨g', t, rfl, hg', h⟩ := matches_star.1 h
  exact matches_star.2 ⟨g ++ g', t, by simp, by simp [hg, hg'], h⟩

theorem matches_append {is js : List Item} {s : Str} :
    Matches (is ++ js) s ↔ ∃ x t, s = x ++ t ∧ Matches is x ∧ Matches js t := by
  induction is generalizing s with
  | nil =>
    constructor
    · exact fun h => ⟨[], s, rfl, .done, h⟩
    · rintro ⟨x, t, rfl, h1, h2⟩
      cases h1
      exact h2
  | cons i is ih =>
    constructor
    · intro h
      cases i with
      | star =>
        obtain ⟨g, t, rfl, hg, h⟩ := matches_star.1 h
        obtain ⟨x, t', rfl, h1, h2⟩ := ih.1 h
        exact ⟨g ++ x, t', by simp, matches_star.2 ⟨g, x, rfl, hg, h1⟩, h2⟩
      | _ =>
        cases h with
        | one ha h =>
          obtain ⟨x, t', rfl, h1, h2⟩ := ih.1 h
          exact ⟨_ :: x, t', rfl, .one ha h1, h2⟩
    · rintro ⟨x, t, rfl, h1, h2⟩
      cases i with
      | star =>
        obtain ⟨g, t', rfl, hg, h⟩ := matches_star.1 h1
        exact matches_star.2 ⟨g, t' ++ t, by simp, hg, ih.2 ⟨t', t, rfl, h, h2⟩⟩
      | _ =>
        cases h1 with
        | one ha h => exact .one ha (ih.2 ⟨_, t, rfl, h, h2⟩)

theorem skipStars_text {is : List Item} {p : Str} (h : Text is p) : ∃ is', Text is' (skipStars p).2 ∧ is' <:+ is ∧
    is'.head? ≠ some .star ∧ ((skipStars p).1 = false → is = is') ∧
    ((skipStars p).1 = true → ∀ s, Matches is s ↔ Matches (.star :: is') s) := by
  induction h with
  | nil => exact ⟨[], .nil, List.suffix_refl _, by simp, fun _ => rfl, fun h => by cases h⟩
  | @star is p h ih =>
    obtain ⟨is', i1, i2, i3, i4, i5⟩ := ih
    simp only [skipStars, if_true]
    refine ⟨is', i1, i2.trans (List.suffix_cons _ _), i3, fun h => by simp at h, fun _ s => ?_⟩
    cases hb : (skipStars p).1 with
    | false => rw [i4 hb]
    | true =>
      rw [← matches_star_star (is := is'), matches_star, matches_star]
      exact exists_congr fun g => exists_congr fun t => and_congr_right' (and_congr_right' (i5 hb t))
  | any h _ =>
    refine ⟨_, ?_, List.suffix_refl _, by simp, fun _ => rfl, fun h => ?_⟩
    · simpa [skipStars] using Text.any h
    · simp [skipStars] at h
  | cls h1 h2 h3 h _ =>
    refine ⟨_, ?_, List.suffix_refl _, by simp, fun _ => rfl, fun h => ?_⟩
    · simpa [skipStars] using Text.cls h1 h2 h3 h
    · simp [skipStars] at h
  | negated h1 h2 h _ =>
    refine ⟨_, ?_, List.suffix_refl _, by simp, fun _ => rfl, fun h => ?_⟩
    · simpa [skipStars] using Text.negated h1 h2 h
    · simp [skipStars] at h
  | lit h1 h2 h3 h4 h _ =>
    refine ⟨_, ?_, List.suffix_refl _, by simp, fun _ => rfl, fun h => ?_⟩
    · simpa [skipStars, h1] using Text.lit h1 h2 h3 h4 h
    · simp [skipStars, h1] at h
  | escaped h _ =>
    refine ⟨_, ?_, List.suffix_refl _, by simp, fun _ => rfl, fun h => ?_⟩
    · simpa [skipStars] using Text.escaped h
    · simp [skipStars] at h

theorem scan_keep {c : UInt8} {p : Str} (h : scan false (c :: p) = (c :: p, [])) (h1 : c ≠ 92) (h2 : c ≠ 91) :
    c ≠ 42 ∧ scan false p = (p, []) := by
  by_cases h3 : c = 42
  · subst h3
    rw [scan.eq_def] at h
    simp at h
  · rw [scan_lit h3 h1 h2] at h
    have h := Prod.mk.inj h
    exact ⟨h3, Prod.ext (List.cons.inj h.1).2 h.2⟩

/-- The chunk consists of terms. -/
def Chunk (p : Str) : Prop := ∃ is, Text is p ∧ Item.star ∉ is

theorem inv_any {p : Str} (hp : scan false (63 :: p) = (63 :: p, [])) (ih : scan false p = (p, []) → Chunk p) : Chunk (63 :: p) := by
  obtain ⟨is, h1, h2⟩ := ih (scan_keep hp (by decide) (by decide)).2
  exact ⟨.any :: is, .any h1, by simp [h2]⟩

theorem inv_lit {c : UInt8} {p : Str} (h91 : ¬c = 91) (h63 : ¬c = 63) (h92 : ¬c = 92) (hp : scan false (c :: p) = (c :: p, []))
    (ih : scan false p = (p, []) → Chunk p) : Chunk (c :: p) := by
  obtain ⟨h42, hp⟩ := scan_keep hp h92 h91
  obtain ⟨is, h1, h2⟩ := ih hp
  exact ⟨.lit c :: is, .lit h42 h63 h92 h91 h1, by simp [h2]⟩

theorem inv_esc {c : UInt8} {p : Str} (hp : scan false (92 :: c :: p) = (92 :: c :: p, []))
    (ih : scan false p = (p, []) → Chunk p) : Chunk (92 :: c :: p) := by
  rw [scan_esc] at hp
  have hp := Prod.mk.inj hp
  obtain ⟨is, h1, h2⟩ := ih (Prod.ext (List.cons.inj (List.cons.inj hp.1).2).2 hp.2)
  exact ⟨.lit c :: is, .escaped h1, by simp [h2]⟩

theorem inv_cls {k p : Str} {r : Nat} {hit : Bool} (hk : ranges (afterCaret k) r 0 false = .ok (hit, p))
    (hp : scan false (91 :: k) = (91 :: k, [])) (ih : scan false p = (p, []) → Chunk p) : Chunk (91 :: k) := by
  obtain ⟨rs, t, h1, h2, h3⟩ := ranges_inv hk
  have h3 : rs ≠ [] := by simpa using h3
  by_cases hc : k.head? = some 94
  · have e : k = 94 :: (t ++ 93 :: p) := by
      rw [afterCaret, if_pos hc] at h2
      cases k with
      | nil => cases hc
      | cons c k => cases hc; exact congrArg _ h2
    subst e
    rw [scan_neg h1] at hp
    have hp := Prod.mk.inj hp
    obtain ⟨is, i1, i2⟩ := ih (Prod.ext (List.cons.inj (List.append_cancel_left (List.cons.inj (List.cons.inj hp.1).2).2)).2 hp.2)
    exact ⟨.cls true rs :: is, .negated h3 h1 i1, by simp [i2]⟩
  · rw [afterCaret, if_neg hc] at h2
    subst h2
    rw [scan_cls h1] at hp
    have hp := Prod.mk.inj hp
    obtain ⟨is, i1, i2⟩ := ih (Prod.ext (List.cons.inj (List.append_cancel_left (List.cons.inj hp.1).2)).2 hp.2)
    refine ⟨.cls false rs :: is, .cls h3 h1 ?_ i1, by simp [i2]⟩
    obtain ⟨b, t', rfl, -⟩ := rangesText_cons h1 h3
    exact hc

/-- A chunk that `matchChunk` does not complain about consists of terms. -/
theorem matchChunk_inv {p s : Str} {f : Bool} {x : Option Str} (h : matchChunk p s f = .ok x) (hp : scan false p = (p, [])) :
    Chunk p := by
  fun_induction matchChunk p s f
  case case1 => exact ⟨[], .nil, by simp⟩
  case case2 => rename_i hk ih; exact inv_cls hk hp (ih h)
  case case5 => rename_i ih; exact inv_any hp (ih h)
  case case7 => rename_i ih; exact inv_any hp (ih h)
  case case9 => rename_i ih; exact inv_esc hp (ih h)
  case case11 => rename_i ih; exact inv_esc hp (ih h)
  case case12 => rename_i h1 h2 h3 _ ih; exact inv_lit h1 h2 h3 hp (ih h)
  case case14 => rename_i h1 h2 h3 _ _ _ _ ih; exact inv_lit h1 h2 h3 hp (ih h)
  all_goals cases h

theorem skipStars_inv {is : List Item} {p : Str} (h : Text is (skipStars p).2) : ∃ js, Text js p := by
  induction p with
  | nil => exact ⟨_, h⟩
  | cons c p ih =>
    unfold skipStars at h
    split at h
    · rename_i hc
      subst hc
      obtain ⟨js, hj⟩ := ih h
      exact ⟨_, .star hj⟩
    · exact ⟨_, h⟩

/-- The chunk of a pattern is checked, and so is the rest. -/
theorem scanChunk_inv {p s : Str} {f : Bool} {x : Option Str} (h : matchChunk (scanChunk p).2.1 s f = .ok x)
    {js : List Item} (hj : Text js (scanChunk p).2.2) : ∃ is, Text is p := by
  obtain ⟨is, h1, -⟩ := matchChunk_inv h (scan_again _ _)
  have := text_append h1 hj
  rw [scanChunk, scan_append] at this
  exact skipStars_inv this

theorem checkRest_inv {p : Str} {b : Bool} (h : checkRest p = .ok b) : ∃ is, Text is p := by
  fun_induction checkRest p with
  | case1 => exact ⟨[], .nil⟩
  | case2 p _ x hx ih =>
    obtain ⟨js, hj⟩ := ih h
    exact scanChunk_inv hx hj
  | case3 => cases h
  | case4 => cases h

theorem checkRest_no_panic (p : Str) : checkRest p ≠ .panic := by
  fun_induction checkRest p with
  | case1 => simp
  | case2 p _ x hx ih => exact ih
  | case3 => simp
  | case4 p _ hx => exact absurd hx (matchChunk_no_panic _ _ _)

theorem trySkip_no_panic (k : Str) (l : Bool) (s : Str) : trySkip k l s ≠ .panic := by
  fun_induction trySkip k l s <;> first | assumption | simp; done | skip
  rename_i h
  exact absurd h (matchChunk_no_panic _ _ _)

theorem skipStars_head (p : Str) : (skipStars p).2.head? ≠ some 42 := by
  induction p with
  | nil => simp [skipStars]
  | cons c p ih =>
    unfold skipStars
    split
    · exact ih
    · rename_i h; simpa using h

theorem scan_nil {p : Str} (h : (scan false p).1 = []) (hp : p.head? ≠ some 42) : p = [] := by
  rcases scan_rest false p with h1 | h1
  · rw [← scan_append false p, h, h1]; rfl
  · have := scan_append false p
    rw [h, List.nil_append] at this
    rw [this] at h1
    exact absurd h1 hp

theorem pathMatch_inv {p s : Str} {b : Bool} (h : pathMatch p s = .ok b) : ∃ is, Text is p := by
  fun_induction pathMatch p s
  case case1 => exact ⟨[], .nil⟩
  case case2 p _ _ _ _ hc =>
    have := scan_nil hc.2 (skipStars_head p)
    exact skipStars_inv (is := []) (by rw [this]; exact .nil)
  case case3 =>
    rename_i hk _ _ ih
    obtain ⟨js, hj⟩ := ih h
    exact scanChunk_inv hk hj
  case case4 rest _ skip _ hk _ ih =>
    simp only [skip] at h
    have key : ∃ js, Text js rest := by
      split at h
      · split at h
        · exact ih _ h
        · exact checkRest_inv h
        · cases h
        · cases h
      · exact checkRest_inv h
    obtain ⟨js, hj⟩ := key
    exact scanChunk_inv hk hj
  case case5 rest _ skip hk ih =>
    simp only [skip] at h
    have key : ∃ js, Text js rest := by
      split at h
      · split at h
        · exact ih _ h
        · exact checkRest_inv h
        · cases h
        · cases h
      · exact checkRest_inv h
    obtain ⟨js, hj⟩ := key
    exact scanChunk_inv hk hj
  all_goals cases h

theorem pathMatch_no_panic (p s : Str) : pathMatch p s ≠ .panic := by
  fun_induction pathMatch p s
  case case1 => simp
  case case2 => simp
  case case3 => assumption
  case case4 skip _ hk _ ih =>
    simp only [skip]
    split
    · split
      · exact ih _
      · exact checkRest_no_panic _
      · simp
      · rename_i h; exact absurd h (trySkip_no_panic _ _ _)
    · exact checkRest_no_panic _
  case case5 skip hk ih =>
    simp only [skip]
    split
    · split
      · exact ih _
      · exact checkRest_no_panic _
      · simp
      · rename_i h; exact absurd h (trySkip_no_panic _ _ _)
    · exact checkRest_no_panic _
  case case6 => simp
  case case7 => rename_i h _; exact absurd h (matchChunk_no_panic _ _ _)

/-! ## Well-formed patterns -/

/-- How a non-empty pattern is taken apart. -/
theorem scanChunk_text {is : List Item} {p : Str} (h : Text is p) : ∃ is1 is2, (is1 ++ is2) <:+ is ∧ Item.star ∉ is1 ∧
    Text is1 (scanChunk p).2.1 ∧ Text is2 (scanChunk p).2.2 ∧ (is2 = [] ∨ is2.head? = some .star) ∧
    (is1 ++ is2).head? ≠ some .star ∧ ((scanChunk p).1 = false → is = is1 ++ is2) ∧ ((scanChunk p).1 = true → ∀ s, Matches is s ↔ Matches (.star :: (is1 ++ is2)) s) := by
  obtain ⟨is', h1, h2, h3, h4, h5⟩ := skipStars_text h
  obtain ⟨is1, is2, rfl, i1, i2, i3, i4⟩ := scan_text h1
  exact ⟨is1, is2, h2, i1, i2, i3, i4, h3, h4, h5⟩

theorem checkRest_text {is : List Item} {p : Str} (h : Text is p) : checkRest p = .ok false := by
  fun_induction checkRest p generalizing is with
  | case1 => rfl
  | case2 p _ x hx ih =>
    obtain ⟨is1, is2, -, -, -, h3, -⟩ := scanChunk_text h
    exact ih h3
  | case3 p _ hx =>
    obtain ⟨is1, is2, -, h1, h2, -⟩ := scanChunk_text h
    rw [matchChunk_text h2 h1] at hx
    cases hx
  | case4 p _ hx =>
    obtain ⟨is1, is2, -, h1, h2, -⟩ := scanChunk_text h
    rw [matchChunk_text h2 h1] at hx
    cases hx

/-- A match of the chunk after skipping `g`; with `l` it has to reach the end. -/
def Hit (is : List Item) (l : Bool) (s g t u : Str) : Prop :=
  s = g ++ t ∧ g ≠ [] ∧ 47 ∉ g ∧ eat is t = some u ∧ (l = true → u = [])

/-- `trySkip` finds the first such match. -/
theorem trySkip_text {is : List Item} {k : Str} (h : Text is k) (hs : Item.star ∉ is) (l : Bool) (s : Str) :
    (trySkip k l s = .ok none ∧ ∀ g t u, ¬Hit is l s g t u) ∨
    ∃ g t u, Hit is l s g t u ∧ trySkip k l s = .ok (some u) ∧ ∀ g' t' u', Hit is l s g' t' u' → ∃ y, g' = g ++ y := by
  induction s with
  | nil =>
    refine .inl ⟨rfl, ?_⟩
    rintro g t u ⟨e, hg, -⟩
    exact hg (List.append_eq_nil_iff.1 e.symm).1
  | cons b s ih =>
    have hdef : trySkip k l (b :: s) = if b = 47 then .ok none else
        match eat is s with
        | some t => if (l && !t.isEmpty) = true then trySkip k l s else .ok (some t)
        | none => trySkip k l s := by
      rw [trySkip.eq_def]
      simp only [matchChunk_text h hs, Bool.false_eq_true, if_false]
      cases eat is s <;> rfl
    by_cases hb : b = 47
    · refine .inl ⟨by rw [hdef, if_pos hb], ?_⟩
      rintro g t u ⟨e, hg, h47, -⟩
      cases g with
      | nil => exact hg rfl
      | cons c g => exact h47 (by rw [← hb, (List.cons.inj e).1]; exact .head _)
    · rw [if_neg hb] at hdef
      by_cases hu : ∃ u, eat is s = some u ∧ (l = true → u = [])
      · obtain ⟨u, hu, hl⟩ := hu
        refine .inr ⟨[b], s, u, ⟨rfl, by simp, by simpa using Ne.symm hb, hu, hl⟩, ?_, ?_⟩
        · rw [hdef, hu]
          have : (l && !u.isEmpty) = false := by
            cases l with
            | false => rfl
            | true => rw [hl rfl]; rfl
          simp only [this, Bool.false_eq_true, if_false]
        · rintro g t u ⟨e, hg, -⟩
          cases g with
          | nil => exact absurd rfl hg
          | cons c g => exact ⟨g, by rw [(List.cons.inj e).1]; rfl⟩
      · have hstep : trySkip k l (b :: s) = trySkip k l s := by
          rw [hdef]
          cases he : eat is s with
          | none => rfl
          | some u =>
            have : (l && !u.isEmpty) = true := by
              cases l with
              | false => exact absurd ⟨u, he, fun h => by cases h⟩ hu
              | true =>
                cases u with
                | nil => exact absurd ⟨[], he, fun _ => rfl⟩ hu
                | cons => rfl
            simp only [this, if_true]
        rw [hstep]
        have shift : ∀ {g t u}, Hit is l (b :: s) g t u → ∃ g', g = b :: g' ∧ Hit is l s g' t u := by
          rintro g t u ⟨e, hg, h47, h1, h2⟩
          cases g with
          | nil => exact absurd rfl hg
          | cons c g =>
            have e' := List.cons.inj e
            refine ⟨g, by rw [e'.1], e'.2, ?_, fun h => h47 (.tail _ h), h1, h2⟩
            rintro rfl
            exact hu ⟨u, by rw [show s = t from e'.2]; exact h1, h2⟩
        rcases ih with ⟨i1, i2⟩ | ⟨g, t, u, ⟨i0, -, i1, i2, i3⟩, i4, i5⟩
        · refine .inl ⟨i1, fun g t u hh => ?_⟩
          obtain ⟨g', -, h'⟩ := shift hh
          exact i2 _ _ _ h'
        · refine .inr ⟨b :: g, t, u, ⟨by rw [i0]; rfl, by simp, by simp [i1, Ne.symm hb], i2, i3⟩, i4, ?_⟩
          intro g' t' u' hh
          obtain ⟨g'', rfl, h'⟩ := shift hh
          obtain ⟨y, rfl⟩ := i5 _ _ _ h'
          exact ⟨y, rfl⟩

/-! ## Where the greedy search is right -/

theorem hits_iff {rs : List (Nat × Nat)} {r : Nat} : hits rs r = true ↔ ∃ lh ∈ rs, lh.1 ≤ r ∧ r ≤ lh.2 := by
  simp [hits]

theorem bytewise_tail {i : Item} {is : List Item} {c : UInt8} {s : Str} (h : Bytewise (i :: is) (c :: s)) : Bytewise is s := by
  rcases h with h | h
  · exact .inl fun c hc => h c (.tail _ hc)
  · exact .inr fun i hi => h i (.tail _ hi)

theorem eat_iff {is : List Item} {s t : Str} (hs : Item.star ∉ is) (hb : Bytewise is s) :
    eat is s = some t ↔ ∃ x, s = x ++ t ∧ Matches is x := by
  induction is generalizing s with
  | nil =>
    simp only [eat, Option.some.injEq]
    constructor
    · rintro rfl; exact ⟨[], rfl, .done⟩
    · rintro ⟨x, rfl, h⟩; cases h; rfl
  | cons i is ih =>
    have hs' : Item.star ∉ is := fun h => hs (.tail _ h)
    cases s with
    | nil =>
      simp only [eat, reduceCtorEq, false_iff]
      rintro ⟨x, e, h⟩
      have := (List.append_eq_nil_iff.1 e.symm).1
      subst this
      cases h
      exact hs (.head _)
    | cons c s =>
      have key : (i.accepts c ∧ eat is s = some t) ↔ ∃ x, c :: s = x ++ t ∧ Matches (i :: is) x := by
        rw [ih hs' (bytewise_tail hb)]
        constructor
        · rintro ⟨ha, x, rfl, h⟩
          exact ⟨c :: x, rfl, .one ha h⟩
        · rintro ⟨x, e, h⟩
          cases h with
          | one ha h =>
            rw [List.cons_append] at e
            have e' := List.cons.inj e
            rw [e'.1]
            exact ⟨ha, _, e'.2, h⟩
          | none => exact absurd (.head _) hs
          | more => exact absurd (.head _) hs
      rw [← key]
      have hd : (∃ b, i = .lit b) ∨ decodeRune (c :: s) = (c.toNat, 1) := by
        rcases hb with hb | hb
        · have := hb c (.head _)
          exact .inr (by simp [decodeRune, this])
        · rcases hb i (.head _) with rfl | h
          · exact absurd (.head _) hs
          · exact .inl h
      cases i with
      | star => exact absurd (.head _) hs
      | lit b =>
        simp only [eat, Item.accepts]
        by_cases h : b = c
        · simp [h]
        · simp [h, Ne.symm h]
      | any =>
        rcases hd with ⟨b, hd⟩ | hd
        · cases hd
        · simp only [eat, hd, Item.accepts, List.drop_succ_cons, List.drop_zero]
          by_cases h : c = 47
          · simp [h]
          · simp [h]
      | cls neg rs =>
        rcases hd with ⟨b, hd⟩ | hd
        · cases hd
        · simp only [eat, hd, Item.accepts, List.drop_succ_cons, List.drop_zero, ← hits_iff]
          cases neg <;> cases hits rs c.toNat <;> simp

/-- Where a text matched by a chunk has its slashes does not depend on the text. -/
theorem slashes {is : List Item} (hs : Item.star ∉ is) (hn : NoSlash is) {x y : Str} (hx : Matches is x) (hy : Matches is y) :
    x.map (· == 47) = y.map (· == 47) := by
  induction is generalizing x y with
  | nil => cases hx; cases hy; rfl
  | cons i is ih =>
    cases hx with
    | none => exact absurd (.head _) hs
    | more => exact absurd (.head _) hs
    | @one _ c _ x hc hx =>
      cases hy with
      | none => exact absurd (.head _) hs
      | more => exact absurd (.head _) hs
      | @one _ d _ y hd hy =>
        simp only [List.map_cons]
        rw [ih (fun h => hs (.tail _ h)) (fun neg rs h => hn neg rs (.tail _ h)) hx hy]
        suffices (c == 47) = (d == 47) by rw [this]
        cases i with
        | star => exact absurd (.head _) hs
        | lit b => rw [show c = b from hc, show d = b from hd]
        | any =>
          have hc : c ≠ 47 := hc
          have hd : d ≠ 47 := hd
          rw [beq_false_of_ne hc, beq_false_of_ne hd]
        | cls neg rs =>
          have := hn neg rs (.head _)
          have h1 : c ≠ 47 := by rintro rfl; exact this hc
          have h2 : d ≠ 47 := by rintro rfl; exact this hd
          rw [beq_false_of_ne h1, beq_false_of_ne h2]

/-- A list that is a beginning of itself shifted by `k + 1` places of `false` contains nothing else. -/
theorem all_false {B : List Bool} {k : Nat} (h : B <+: List.replicate (k + 1) false ++ B) : ∀ i : Nat, B[i]? ≠ some true := by
  intro i
  induction i using Nat.strongRecOn with
  | _ i ih =>
    intro hi
    obtain ⟨r, hr⟩ := h
    have hlt : i < B.length := by
      rw [List.getElem?_eq_some_iff] at hi
      exact hi.1
    have : (B ++ r)[i]? = some true := by rw [List.getElem?_append_left hlt]; exact hi
    rw [hr] at this
    by_cases hk : i < k + 1
    · rw [List.getElem?_append_left (by simpa using hk), List.getElem?_replicate] at this
      simp [hk] at this
    · rw [List.getElem?_append_right (by simpa using hk), List.length_replicate] at this
      exact ih (i - (k + 1)) (by omega) this

/-- Between the ends of two matches of a chunk there is no slash if there is none between their beginnings. -/
theorem no_slash_between {is : List Item} (hs : Item.star ∉ is) (hn : NoSlash is) {y x x' u u' : Str} (hy : 47 ∉ y)
    (hx : Matches is x) (hx' : Matches is x') (e : x ++ u = y ++ (x' ++ u')) : ∃ w, u = w ++ u' ∧ 47 ∉ w := by
  have hm := slashes hs hn hx hx'
  have hlen : x.length = x'.length := by simpa using congrArg List.length hm
  rw [← List.append_assoc] at e
  have hpre : x <+: y ++ x' := by
    apply List.prefix_of_prefix_length_le (l₃ := x ++ u) (List.prefix_append _ _)
    · rw [e]; exact List.prefix_append _ _
    · simp [hlen]
  obtain ⟨w, hw⟩ := hpre
  have hu : u = w ++ u' := by
    rw [← hw, List.append_assoc] at e
    exact List.append_cancel_left e
  refine ⟨w, hu, ?_⟩
  cases y with
  | nil =>
    have : w = [] := by
      have := congrArg List.length hw
      simp at this
      exact List.length_eq_zero_iff.1 (by omega)
    simp [this]
  | cons c y =>
    have hrep : ∀ y : Str, 47 ∉ y → y.map (· == 47) = List.replicate y.length false := by
      intro y hy
      induction y with
      | nil => rfl
      | cons c y ih =>
        simp only [List.mem_cons, not_or] at hy
        simp [List.replicate_succ, ih hy.2, Ne.symm hy.1]
    have hB : x'.map (· == 47) <+: List.replicate (y.length + 1) false ++ x'.map (· == 47) := by
      refine ⟨w.map (· == 47), ?_⟩
      rw [← hm, ← List.map_append, hw, List.map_append, hrep _ hy]
      rw [hm]
      rfl
    have hno : 47 ∉ x' := by
      intro h
      obtain ⟨i, hi⟩ := List.mem_iff_getElem?.1 h
      exact all_false hB i (by rw [List.getElem?_map, hi]; rfl)
    intro h47
    have : (47 : UInt8) ∈ c :: y ++ x' := by rw [← hw]; exact List.mem_append_right _ h47
    rcases List.mem_append.1 this with h | h
    · exact hy h
    · exact hno h

theorem eat_suffix {is : List Item} {s t : Str} (hs : Item.star ∉ is) (hb : Bytewise is s) (h : eat is s = some t) : t <:+ s := by
  obtain ⟨x, rfl, -⟩ := (eat_iff hs hb).1 h
  exact List.suffix_append _ _

theorem bytewise_mono {is js : List Item} {s t : Str} (h : Bytewise is s) (hi : ∀ i ∈ js, i ∈ is) (ht : ∀ c ∈ t, c ∈ s) :
    Bytewise js t := by
  rcases h with h | h
  · exact .inl fun c hc => h c (ht c hc)
  · exact .inr fun i hj => h i (hi i hj)

theorem matches_chunk {is js : List Item} {s : Str} (hs : Item.star ∉ is) (hb : Bytewise is s) :
    Matches (is ++ js) s ↔ ∃ t, eat is s = some t ∧ Matches js t := by
  rw [matches_append]
  constructor
  · rintro ⟨x, t, rfl, h1, h2⟩
    exact ⟨t, (eat_iff hs hb).2 ⟨x, rfl, h1⟩, h2⟩
  · rintro ⟨t, h1, h2⟩
    obtain ⟨x, e, h⟩ := (eat_iff hs hb).1 h1
    exact ⟨x, t, e, h, h2⟩

/-- The first match is as good as any other. -/
theorem greedy {is js : List Item} {t u y t' u' : Str} (hs : Item.star ∉ is) (hn : NoSlash is) (hb : Bytewise is t) (ht : t = y ++ t')
    (hy : 47 ∉ y) (h : eat is t = some u) (h' : eat is t' = some u') (hj : js = [] ∨ js.head? = some .star) (hu : js = [] → u = [])
    (hm : Matches js u') : Matches js u := by
  have hb' : Bytewise is t' := bytewise_mono hb (fun _ h => h) (fun c hc => by rw [ht]; exact List.mem_append_right _ hc)
  obtain ⟨x, e, hx⟩ := (eat_iff hs hb).1 h
  obtain ⟨x', e', hx'⟩ := (eat_iff hs hb').1 h'
  rcases hj with rfl | hj
  · rw [hu rfl]; exact .done
  · cases js with
    | nil => cases hj
    | cons j js =>
      cases hj
      obtain ⟨w, rfl, hw⟩ := no_slash_between hs hn hy hx hx' (by rw [← e, ht, e'])
      obtain ⟨g, v, rfl, hg, hv⟩ := matches_star.1 hm
      exact matches_star.2 ⟨w ++ g, v, by simp, by simp [hw, hg], hv⟩

/-- `path.Match` on a well-formed pattern. -/
theorem pathMatch_text {is : List Item} {p : Str} (h : Text is p) (s : Str) :
    ∃ b, pathMatch p s = .ok b ∧ (Bytewise is s → NoSlash is → (b = true ↔ Matches is s)) := by
  have main : ∀ n, ∀ (is : List Item) (p s : Str), p.length ≤ n → Text is p →
      ∃ b, pathMatch p s = .ok b ∧ (Bytewise is s → NoSlash is → (b = true ↔ Matches is s)) := by
    intro n
    induction n with
    | zero =>
      intro is p s hn h
      have : p = [] := List.length_eq_zero_iff.1 (by omega)
      subst this
      cases h
      rw [pathMatch.eq_def]
      refine ⟨s.isEmpty, by simp, fun _ _ => ?_⟩
      cases s with
      | nil => simp; exact .done
      | cons => simp; intro h; cases h
    | succ n ih =>
      intro is p s hn h
      by_cases hp : p = []
      · exact ih is p s (by rw [hp]; simp) h
      · have hlt := scanChunk_lt hp
        obtain ⟨is1, is2, hsuf, h1, h2, h3, h4, h0, h5, h6⟩ := scanChunk_text h
        have ih := fun t => ih is2 (scanChunk p).2.2 t (by omega) h3
        rw [pathMatch.eq_def]
        simp only [hp, dif_neg, not_false_eq_true]
        generalize (scanChunk p).1 = star at *
        generalize (scanChunk p).2.1 = k at *
        generalize (scanChunk p).2.2 = r at *
        have hr : r = [] ↔ is2 = [] := by
          constructor
          · rintro rfl; cases h3; rfl
          · rintro rfl; cases h3; rfl
        have hn1 : NoSlash is → NoSlash is1 := fun hn neg rs hm => hn neg rs (hsuf.subset (List.mem_append_left _ hm))
        have hn2 : NoSlash is → NoSlash is2 := fun hn neg rs hm => hn neg rs (hsuf.subset (List.mem_append_right _ hm))
        have hb1 : ∀ t : Str, (∀ c ∈ t, c ∈ s) → Bytewise is s → Bytewise is1 t := fun t ht hb =>
          bytewise_mono hb (fun i hi => hsuf.subset (List.mem_append_left _ hi)) ht
        have hb2 : ∀ t : Str, (∀ c ∈ t, c ∈ s) → Bytewise is s → Bytewise is2 t := fun t ht hb =>
          bytewise_mono hb (fun i hi => hsuf.subset (List.mem_append_right _ hi)) ht
        -- what the pattern means
        have meaning : Bytewise is s → (Matches is s ↔ ∃ g t u, s = g ++ t ∧ 47 ∉ g ∧ (star = false → g = []) ∧
            eat is1 t = some u ∧ Matches is2 u) := by
          intro hb
          cases hst : star with
          | false =>
            rw [h5 hst, matches_chunk h1 (hb1 s (fun _ h => h) hb)]
            constructor
            · rintro ⟨u, e1, e2⟩
              exact ⟨[], s, u, rfl, by simp, fun _ => rfl, e1, e2⟩
            · rintro ⟨g, t, u, e, -, hg, e1, e2⟩
              rw [hg rfl] at e
              exact ⟨u, by rw [e]; exact e1, e2⟩
          | true =>
            rw [h6 hst, matches_star]
            constructor
            · rintro ⟨g, t, e, hg, hm⟩
              rw [matches_chunk h1 (hb1 t (fun c h => by rw [e]; exact List.mem_append_right _ h) hb)] at hm
              obtain ⟨u, e1, e2⟩ := hm
              exact ⟨g, t, u, e, hg, (fun h => by cases h), e1, e2⟩
            · rintro ⟨g, t, u, e, hg, -, e1, e2⟩
              refine ⟨g, t, e, hg, ?_⟩
              rw [matches_chunk h1 (hb1 t (fun c h => by rw [e]; exact List.mem_append_right _ h) hb)]
              exact ⟨u, e1, e2⟩
        -- a match that comes first decides
        have decides : ∀ g t u, s = g ++ t → 47 ∉ g → (star = false → g = []) → eat is1 t = some u → (r = [] → u = []) →
            (∀ g' t' u', s = g' ++ t' → 47 ∉ g' → (star = false → g' = []) → eat is1 t' = some u' → (r = [] → u' = []) → ∃ y, g' = g ++ y) →
            ∃ b, pathMatch r u = .ok b ∧ (Bytewise is s → NoSlash is → (b = true ↔ Matches is s)) := by
          intro g t u e hg hst hu hr' hmin
          obtain ⟨b, hb, hbm⟩ := ih u
          refine ⟨b, hb, fun hbw hns => ?_⟩
          have hbt := hb1 t (fun c h => by rw [e]; exact List.mem_append_right _ h) hbw
          have hbu := hb2 u (fun c h => by rw [e]; exact List.mem_append_right _ ((eat_suffix h1 hbt hu).subset h)) hbw
          rw [hbm hbu (hn2 hns), meaning hbw]
          constructor
          · exact fun hm => ⟨g, t, u, e, hg, hst, hu, hm⟩
          · rintro ⟨g', t', u', e', hg', hst', hu', hm⟩
            have hrr : r = [] → u' = [] := by
              intro h
              rw [hr.1 h] at hm
              cases hm
              rfl
            obtain ⟨y, rfl⟩ := hmin g' t' u' e' hg' hst' hu' hrr
            rw [e, List.append_assoc] at e'
            exact greedy h1 (hn1 hns) hbt (List.append_cancel_left e') (fun h => hg' (List.mem_append_right _ h)) hu hu' h4
              (fun h => hr' (hr.2 h)) hm
        -- nothing matches
        have fails : (∀ g t u, s = g ++ t → 47 ∉ g → (star = false → g = []) → eat is1 t = some u → ¬(r = [] → u = [])) →
            ∃ b, checkRest r = .ok b ∧ (Bytewise is s → NoSlash is → (b = true ↔ Matches is s)) := by
          intro hno
          refine ⟨false, checkRest_text h3, fun hbw hns => ?_⟩
          rw [meaning hbw]
          simp only [Bool.false_eq_true, false_iff]
          rintro ⟨g, t, u, e, hg, hst, hu, hm⟩
          refine hno g t u e hg hst hu fun h => ?_
          rw [hr.1 h] at hm
          cases hm
          rfl
        by_cases hend : star = true ∧ k = []
        · rw [if_pos hend]
          obtain ⟨hst, rfl⟩ := hend
          refine ⟨_, rfl, fun _ _ => ?_⟩
          cases h2
          have h22 : is2 = [] := h4.resolve_right h0
          subst h22
          rw [h6 hst, matches_star]
          constructor
          · intro h
            exact ⟨s, [], by simp, by simpa using h, .done⟩
          · rintro ⟨g, t, rfl, hg, ht⟩
            cases ht
            simpa using hg
        · rw [if_neg hend, matchChunk_text h2 h1]
          simp only [Bool.false_eq_true, if_false]
          have skip : (∀ u, eat is1 s = some u → ¬(r = [] → u = [])) →
              ∃ b, (if star = true then
                match trySkip k r.isEmpty s with
                | .ok (some t) => pathMatch r t
                | .ok none => checkRest r
                | .err => .err
                | .panic => .panic
              else checkRest r) = .ok b ∧ (Bytewise is s → NoSlash is → (b = true ↔ Matches is s)) := by
            intro hfirst
            cases hst : star with
            | false =>
              simp only [Bool.false_eq_true, if_false]
              refine fails fun g t u e hg hs hu => ?_
              rw [hs hst] at e
              exact hfirst u (by rw [e]; exact hu)
            | true =>
              simp only [if_true]
              have hl : ∀ u : Str, (r.isEmpty = true → u = []) ↔ (r = [] → u = []) := by simp
              rcases trySkip_text h2 h1 r.isEmpty s with ⟨e1, e2⟩ | ⟨g, t, u, ⟨q1, q2, q3, q4, q5⟩, e1, e2⟩
              · rw [e1]
                refine fails fun g t u e hg _ hu hru => ?_
                by_cases hg0 : g = []
                · subst hg0
                  exact hfirst u (by rw [e]; exact hu) hru
                · exact e2 g t u ⟨e, hg0, hg, hu, (hl u).2 hru⟩
              · rw [e1]
                refine decides g t u q1 q3 (fun h => by rw [hst] at h; cases h) q4 ((hl u).1 q5) ?_
                intro g' t' u' e hg' _ hu' hru'
                by_cases hg0 : g' = []
                · subst hg0
                  exact absurd hru' (hfirst u' (by rw [e]; exact hu'))
                · exact e2 g' t' u' ⟨e, hg0, hg', hu', (hl u').2 hru'⟩
          cases he : eat is1 s with
          | none => exact skip fun u hu => by rw [he] at hu; cases hu
          | some u =>
            simp only
            by_cases hcond : (u.isEmpty || !r.isEmpty) = true
            · rw [if_pos hcond]
              refine decides [] s u rfl (by simp) (fun _ => rfl) he ?_ ?_
              · rintro rfl
                simpa using hcond
              · exact fun g' _ _ _ _ _ _ _ => ⟨g', rfl⟩
            · rw [if_neg hcond]
              refine skip fun u' hu' hru => ?_
              rw [he] at hu'
              cases hu'
              simp only [Bool.or_eq_true, not_or, Bool.not_eq_true', Bool.not_eq_false, List.isEmpty_iff] at hcond
              exact hcond.1 (hru hcond.2)
  exact main p.length is p s (Nat.le_refl _) h

end Wamp.PathMatch
