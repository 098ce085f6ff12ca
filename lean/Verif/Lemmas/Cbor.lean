import Verif.Spec.Cbor
/-!
# CBOR: reading what was written
-/
namespace Wamp.Cbor
open Wamp

theorem be_length (k n : Nat) : (be k n).length = k := by
  induction k generalizing n with
  | zero => rfl
  | succ k ih => simp [be, ih]

theorem foldl_be (s : Str) (a : Nat) : s.foldl (fun a b => a * 256 + b.toNat) a = a * 256 ^ s.length + ofBE s := by
  induction s generalizing a with
  | nil => simp [ofBE]
  | cons b s ih =>
    have h2 : ofBE (b :: s) = (0 * 256 + b.toNat) * 256 ^ s.length + ofBE s := by
      rw [← ih]; rfl
    rw [List.foldl_cons, ih, h2, List.length_cons, Nat.pow_succ]
    simp only [Nat.add_mul, Nat.zero_mul, Nat.zero_add]
    rw [Nat.mul_assoc a 256, Nat.mul_comm 256 (256 ^ s.length)]
    omega

theorem ofBE_be (k n : Nat) (h : n < 256 ^ k) : ofBE (be k n) = n := by
  induction k generalizing n with
  | zero => simp at h; subst h; rfl
  | succ k ih =>
    have hp : 0 < 256 ^ k := Nat.pow_pos (by decide)
    rw [be, ofBE, List.foldl_cons, foldl_be, be_length, ih _ (Nat.mod_lt _ hp)]
    have : n / 256 ^ k < 256 := by
      rw [Nat.div_lt_iff_lt_mul hp]
      rw [Nat.pow_succ] at h
      omega
    rw [UInt8.toNat_ofNat_of_lt' (by simpa using this)]
    have := Nat.div_add_mod n (256 ^ k)
    rw [Nat.mul_comm] at this
    rw [Nat.zero_mul, Nat.zero_add]
    exact this

theorem readHead_short (major n : Nat) (hm : major < 8) (hn : n < 24) (rest : Str) :
    readHead (UInt8.ofNat (major * 32 + n) :: rest) = some (major, n, n, rest) := by
  have h : (UInt8.ofNat (major * 32 + n)).toNat = major * 32 + n := UInt8.toNat_ofNat_of_lt' (by show _ < 256; omega)
  simp only [readHead, h]
  rw [show (major * 32 + n) / 32 = major by omega, show (major * 32 + n) % 32 = n by omega, if_pos hn]

theorem readHead_long (major info n : Nat) (hm : major < 8) (hi : 24 ≤ info) (hi' : info ≤ 27) (hn : n < 256 ^ (2 ^ (info - 24)))
    (rest : Str) :
    readHead (UInt8.ofNat (major * 32 + info) :: (be (2 ^ (info - 24)) n ++ rest)) = some (major, info, n, rest) := by
  have h : (UInt8.ofNat (major * 32 + info)).toNat = major * 32 + info := UInt8.toNat_ofNat_of_lt' (by show _ < 256; omega)
  simp only [readHead, h]
  rw [show (major * 32 + info) / 32 = major by omega, show (major * 32 + info) % 32 = info by omega, if_neg (by omega), if_pos hi']
  have hl := be_length (2 ^ (info - 24)) n
  rw [if_neg (by rw [List.length_append, hl]; omega), List.take_append_of_le_length (by omega), List.take_of_length_le (by omega),
    List.drop_append_of_le_length (by omega), List.drop_of_length_le (by omega), ofBE_be _ _ hn, List.nil_append]

/-- A head is read back. -/
theorem readHead_head (major n : Nat) (hm : major < 8) (hn : n < 2 ^ 64) (rest : Str) :
    ∃ info, readHead (head major n ++ rest) = some (major, info, n, rest) := by
  unfold head
  split
  · exact ⟨n, readHead_short major n hm ‹_› rest⟩
  split
  · exact ⟨24, readHead_long major 24 n hm (by decide) (by decide) (by simpa using ‹_›) rest⟩
  split
  · exact ⟨25, readHead_long major 25 n hm (by decide) (by decide) (by simpa using ‹_›) rest⟩
  split
  · exact ⟨26, readHead_long major 26 n hm (by decide) (by decide) (by simpa using ‹_›) rest⟩
  · exact ⟨27, readHead_long major 27 n hm (by decide) (by decide) (by simpa using hn) rest⟩

theorem split_append (a b : Str) : split a.length (a ++ b) = some (a, b) := by
  simp [split]

theorem readText_head (s : Str) (h : text s = true) (rest : Str) : readText (head 3 s.length ++ s ++ rest) = some (s, rest) := by
  simp only [text, Bool.and_eq_true, decide_eq_true_eq] at h
  obtain ⟨info, hi⟩ := readHead_head 3 s.length (by decide) h.2 (s ++ rest)
  rw [List.append_assoc, readText, hi]
  simp only [split_append, h.1, if_true]

theorem dec_text (levels : Nat) (s : Str) (h : text s = true) (rest : Str) :
    dec levels (head 3 s.length ++ s ++ rest) = some (.str s, rest) := by
  simp only [text, Bool.and_eq_true, decide_eq_true_eq] at h
  obtain ⟨info, hi⟩ := readHead_head 3 s.length (by decide) h.2 (s ++ rest)
  rw [List.append_assoc, dec.eq_def, hi]
  simp only [split_append, h.1, if_true]

/-- Reading items one after the other. -/
theorem seqOf_map {α β : Type} (f : Str → Option (β × Str)) (g : α → Str) (h : α → β) (l : List α)
    (hf : ∀ x ∈ l, ∀ rest, f (g x ++ rest) = some (h x, rest)) (rest : Str) :
    seqOf f l.length (l.flatMap g ++ rest) = some (l.map h, rest) := by
  induction l with
  | nil => rfl
  | cons x l ih =>
    rw [List.length_cons, seqOf, List.flatMap_cons, List.append_assoc, hf x (List.mem_cons_self ..)]
    simp only [ih fun y hy => hf y (List.mem_cons_of_mem _ hy), List.map_cons]

/-! ### Floats -/

theorem floatOf_bits (eb mb : Nat) (heb : 2 ≤ eb) (neg : Bool) (m : Nat) (e : Int) (h : isFloat eb mb (.fin neg m e) = true) :
    floatOf eb mb (floatBits eb mb neg m e) = .fin neg m e ∧ floatBits eb mb neg m e < 2 ^ (eb + mb + 1) := by
  have hQ : 4 ≤ 2 ^ eb := by
    calc 4 = 2 ^ 2 := rfl
      _ ≤ 2 ^ eb := Nat.pow_le_pow_right (by decide) heb
  have hP : 0 < 2 ^ mb := Nat.pow_pos (by decide)
  -- split into sign, exponent and fraction
  have parts : ∀ s E f : Nat, s < 2 → E < 2 ^ eb → f < 2 ^ mb → let n := (s * 2 ^ eb + E) * 2 ^ mb + f
      n / 2 ^ (eb + mb) = s ∧ n / 2 ^ mb % 2 ^ eb = E ∧ n % 2 ^ mb = f ∧ n < 2 ^ (eb + mb + 1) := by
    intro s E f hs hE hf n
    have h1 : n / 2 ^ mb = s * 2 ^ eb + E := by
      show ((s * 2 ^ eb + E) * 2 ^ mb + f) / 2 ^ mb = _
      rw [Nat.add_comm, Nat.add_mul_div_right _ _ hP, Nat.div_eq_of_lt hf, Nat.zero_add]
    have h2 : n / 2 ^ (eb + mb) = s := by
      rw [Nat.add_comm eb mb, Nat.pow_add, ← Nat.div_div_eq_div_mul, h1, Nat.add_comm, Nat.add_mul_div_right _ _ (by omega),
        Nat.div_eq_of_lt hE, Nat.zero_add]
    refine ⟨h2, ?_, ?_, ?_⟩
    · rw [h1, Nat.add_comm, Nat.add_mul_mod_self_right, Nat.mod_eq_of_lt hE]
    · show ((s * 2 ^ eb + E) * 2 ^ mb + f) % 2 ^ mb = f
      rw [Nat.add_comm, Nat.add_mul_mod_self_right, Nat.mod_eq_of_lt hf]
    · have : n / 2 ^ (eb + mb) < 2 := by omega
      rw [Nat.div_lt_iff_lt_mul (Nat.pow_pos (by decide))] at this
      rw [Nat.pow_succ]
      omega
  have e1 : ∀ E f : Nat, (if neg then 2 ^ (eb + mb) else 0) + (E * 2 ^ mb + f) = ((if neg then 1 else 0) * 2 ^ eb + E) * 2 ^ mb + f := by
    intro E f
    rw [Nat.pow_add]
    cases neg <;> simp [Nat.add_mul, Nat.add_assoc]
  have hs : (if neg then 1 else 0 : Nat) < 2 := by cases neg <;> decide
  have hneg : decide ((if neg then 1 else 0 : Nat) = 1) = neg := by cases neg <;> rfl
  simp only [isFloat] at h
  by_cases hm : m < 2 ^ mb
  · rw [if_pos hm] at h
    have he : e = 1 - bias eb - mb := by simpa using h
    have hb : floatBits eb mb neg m e = ((if neg then 1 else 0) * 2 ^ eb + 0) * 2 ^ mb + m := by
      rw [floatBits, if_pos hm, ← e1 0 m, Nat.zero_mul, Nat.zero_add]
    obtain ⟨p1, p2, p3, p4⟩ := parts (if neg then 1 else 0) 0 m hs (by omega) hm
    rw [hb]
    refine ⟨?_, p4⟩
    simp only [floatOf, p1, p2, p3, hneg]
    rw [if_neg (by omega), if_pos trivial, he]
  · rw [if_neg hm] at h
    simp only [Bool.and_eq_true, decide_eq_true_eq] at h
    obtain ⟨⟨h1, h2⟩, h3⟩ := h
    have hq : ((2 ^ eb : Nat) : Int) = 2 ^ eb := by simp
    have hE1 : 1 ≤ (e + bias eb + mb).toNat := by omega
    have hE2 : (e + bias eb + mb).toNat ≤ 2 ^ eb - 2 := by omega
    have hE3 : ((e + bias eb + mb).toNat : Int) = e + bias eb + mb := by omega
    have hb : floatBits eb mb neg m e =
        ((if neg then 1 else 0) * 2 ^ eb + (e + bias eb + mb).toNat) * 2 ^ mb + (m - 2 ^ mb) := by
      rw [floatBits, if_neg hm, e1]
    obtain ⟨p1, p2, p3, p4⟩ := parts (if neg then 1 else 0) (e + bias eb + mb).toNat (m - 2 ^ mb) hs (by omega)
      (by rw [Nat.pow_succ] at h1; omega)
    rw [hb]
    refine ⟨?_, p4⟩
    simp only [floatOf, p1, p2, p3, hneg]
    rw [if_neg (by omega), if_neg (by omega), hE3]
    congr 1 <;> omega

/-! ### Maps -/

theorem strLt_irrefl (a : Str) : strLt a a = false := by
  induction a with
  | nil => rfl
  | cons x a ih => simp [strLt, ih]

theorem strLt_trans {a b c : Str} (h : strLt a b = true) (h' : strLt b c = true) : strLt a c = true := by
  induction a generalizing b c with
  | nil =>
    cases c with
    | nil => cases b <;> simp [strLt] at h'
    | cons => rfl
  | cons x a ih =>
    cases b with
    | nil => simp [strLt] at h
    | cons y b =>
      cases c with
      | nil => simp [strLt] at h'
      | cons z c =>
        simp only [strLt] at h h' ⊢
        split at h
        · split at h'
          · rw [if_pos (UInt8.lt_trans ‹_› ‹_›)]
          · split at h'
            · subst_vars; rw [if_pos ‹_›]
            · simp at h'
        · split at h
          · subst_vars
            split at h'
            · rw [if_pos ‹_›]
            · split at h'
              · rw [if_neg ‹_›, if_pos ‹_›]; exact ih h h'
              · simp at h'
          · simp at h

theorem strLt_total {a b : Str} (hne : a ≠ b) (h : strLt a b = false) : strLt b a = true := by
  induction a generalizing b with
  | nil => cases b with
    | nil => exact absurd rfl hne
    | cons => simp [strLt] at h
  | cons x a ih =>
    cases b with
    | nil => rfl
    | cons y b =>
      simp only [strLt] at h ⊢
      by_cases hlt : x < y
      · simp [hlt] at h
      · by_cases he : x = y
        · subst he
          simp only [UInt8.lt_irrefl, if_false, if_true] at h ⊢
          exact ih (fun e => hne (by rw [e])) h
        · have : y < x := by
            rw [UInt8.lt_iff_toNat_lt] at hlt ⊢
            have : x.toNat ≠ y.toNat := fun e => he (UInt8.toNat_inj.1 e)
            omega
          rw [if_pos this]

theorem strLt_asymm {a b : Str} (h : strLt a b = true) : strLt b a = false := by
  cases hb : strLt b a with
  | false => rfl
  | true => have := strLt_trans h hb; rw [strLt_irrefl] at this; cases this

theorem strLt_ne {a b : Str} (h : strLt a b = true) : a ≠ b := by
  rintro rfl; rw [strLt_irrefl] at h; cases h

/-- Entries with different keys can be added in either order. -/
theorem dset_comm (d : Dict) (k k' : Str) (v v' : Val) (hne : k ≠ k') : dset (dset d k v) k' v' = dset (dset d k' v') k v := by
  have hne' : k' ≠ k := fun e => hne e.symm
  induction d with
  | nil =>
    simp only [dset, if_neg hne, if_neg hne']
    cases h : strLt k k' with
    | true => simp [strLt_asymm h]
    | false => simp [strLt_total hne h]
  | cons p d ih =>
    obtain ⟨a, w⟩ := p
    simp only [dset]
    by_cases h1 : k = a
    · subst h1
      simp only [if_true, dset, if_neg hne']
      cases h : strLt k' k with
      | true => simp [dset, hne, strLt_asymm h]
      | false => simp [dset]
    · by_cases h2 : k' = a
      · subst h2
        simp only [if_neg h1, if_true]
        cases h : strLt k k' with
        | true => simp [dset, hne', hne, h, strLt_asymm h]
        | false => simp [dset, hne, h]
      · simp only [if_neg h1, if_neg h2]
        cases h3 : strLt k a with
        | true =>
          cases h4 : strLt k' a with
          | true =>
            simp only [if_true, dset, if_neg hne, if_neg hne']
            cases h : strLt k k' with
            | true => simp [strLt_asymm h, h2, h4]
            | false => simp [strLt_total hne h, h1, h3]
          | false =>
            have h5 : strLt k k' = true := by
              have := strLt_total h2 h4
              exact strLt_trans h3 this
            simp [dset, hne', strLt_asymm h5, h2, h4, h1, h3]
        | false =>
          cases h4 : strLt k' a with
          | true =>
            have h5 : strLt k' k = true := strLt_trans h4 (strLt_total h1 h3)
            simp [dset, hne, strLt_asymm h5, h2, h4, h1, h3]
          | false => simp [dset, h1, h2, h3, h4, ih]

theorem dset_last (d : Dict) (k : Str) (v : Val) (h : ∀ p ∈ d, strLt p.1 k = true) : dset d k v = d ++ [(k, v)] := by
  induction d with
  | nil => rfl
  | cons p d ih =>
    obtain ⟨a, w⟩ := p
    have ha : strLt a k = true := h (a, w) (List.mem_cons_self ..)
    rw [dset, if_neg (fun e => strLt_ne ha e.symm), if_neg (by rw [strLt_asymm ha]; decide), ih fun q hq => h q (List.mem_cons_of_mem _ hq)]
    rfl

theorem foldl_sorted (d acc : Dict) (hs : sortedKeys d = true) (h : ∀ p ∈ acc, ∀ q ∈ d, strLt p.1 q.1 = true) :
    d.foldl (fun d p => dset d p.1 p.2) acc = acc ++ d := by
  induction d generalizing acc with
  | nil => simp
  | cons p d ih =>
    simp only [sortedKeys, Bool.and_eq_true, List.all_eq_true] at hs
    rw [List.foldl_cons, dset_last _ _ _ fun q hq => h q hq p (List.mem_cons_self ..), ih _ hs.2]
    · simp
    · intro q hq r hr
      rcases List.mem_append.1 hq with hq | hq
      · exact h q hq r (List.mem_cons_of_mem _ hr)
      · rw [List.mem_singleton] at hq; subst hq; exact hs.1 r hr

/-- Every key once. -/
theorem sorted_nodup {d : Dict} (hs : sortedKeys d = true) : d.Pairwise fun p q => p.1 ≠ q.1 := by
  induction d with
  | nil => exact List.Pairwise.nil
  | cons p d ih =>
    simp only [sortedKeys, Bool.and_eq_true, List.all_eq_true] at hs
    exact List.Pairwise.cons (fun q hq => strLt_ne (hs.1 q hq)) (ih hs.2)

/-- Whatever the order in which the entries of a map arrive, the same map results. -/
theorem foldl_perm {d ps : Dict} (hs : sortedKeys d = true) (hp : ps.Perm d) :
    ps.foldl (fun d p => dset d p.1 p.2) [] = d := by
  have key : ∀ {a b : Dict}, a.Perm b → (a.Pairwise fun p q => p.1 ≠ q.1) → ∀ acc : Dict,
      a.foldl (fun d p => dset d p.1 p.2) acc = b.foldl (fun d p => dset d p.1 p.2) acc := by
    intro a b h
    induction h with
    | nil => intros; rfl
    | cons x _ ih => intro hn acc; exact ih (List.Pairwise.of_cons hn) _
    | swap x y l =>
      intro hn acc
      simp only [List.foldl_cons]
      rw [dset_comm]
      have := List.rel_of_pairwise_cons hn (List.mem_cons_self (a := x))
      exact this
    | trans h1 _ ih1 ih2 =>
      intro hn acc
      rw [ih1 hn, ih2]
      exact (h1.pairwise_iff (fun {_ _} h e => h e.symm)).1 hn
  rw [key hp ((hp.pairwise_iff (fun {_ _} h e => h e.symm)).2 (sorted_nodup hs)), foldl_sorted d [] hs (by simp)]
  rfl

theorem perm_map_inv {α β : Type} (f : α → β) {l : List β} {ts : List α} (h : l.Perm (ts.map f)) :
    ∃ ts' : List α, ts'.Perm ts ∧ l = ts'.map f := by
  generalize hm : ts.map f = m at h
  induction h generalizing ts with
  | nil => cases ts with
    | nil => exact ⟨[], .refl _, rfl⟩
    | cons => simp at hm
  | cons x _ ih => cases ts with
    | nil => simp at hm
    | cons t ts =>
      rw [List.map_cons] at hm
      injection hm with h1 h2
      obtain ⟨ts', p, e⟩ := ih h2
      exact ⟨t :: ts', p.cons t, by rw [List.map_cons, ← e, h1]⟩
  | swap x y l => cases ts with
    | nil => simp at hm
    | cons t ts =>
      cases ts with
      | nil => simp at hm
      | cons u ts =>
        simp only [List.map_cons] at hm
        injection hm with h1 h2
        injection h2 with h2 h3
        exact ⟨u :: t :: ts, .swap .., by simp [h1, h2, h3]⟩
  | trans _ _ ih1 ih2 =>
    obtain ⟨ts', p, e⟩ := ih2 hm
    obtain ⟨ts'', p', e'⟩ := ih1 e.symm
    exact ⟨ts'', p'.trans p, e'⟩

/-! ### The round trip -/

section
variable (order : List (Str × Str) → List (Str × Str))

/-- The value is written, and reading it gives its wire form and leaves what follows. -/
def Good (levels : Nat) (v : Val) : Prop :=
  ∃ b, enc order v = some b ∧ ∀ rest, dec levels (b ++ rest) = some (cborWire v, rest)

theorem sortedKeys_map (d : Dict) (f : Val → Val) : sortedKeys (d.map fun p => (p.1, f p.2)) = sortedKeys d := by
  induction d with
  | nil => rfl
  | cons p d ih => simp [sortedKeys, ih, List.all_map, Function.comp_def]

theorem wireM_map (d : Dict) : wireM cborLeaf d = d.map fun p => (p.1, cborWire p.2) := by
  induction d with
  | nil => rfl
  | cons p d ih => obtain ⟨k, v⟩ := p; simp [wireM, ih, cborWire]

theorem wireL_map (l : List Val) : wireL cborLeaf l = l.map cborWire := by
  induction l with
  | nil => rfl
  | cons p d ih => simp [wireL, ih, cborWire]

theorem dec_special (levels : Nat) (f : GoFloat) (hf : ∀ neg m e, f ≠ .fin neg m e) (rest : Str) :
    dec levels (special f ++ rest) = some (.f64 f, rest) := by
  have key : ∀ n : Nat, n < 2 ^ 16 → dec levels (0xf9 :: (be 2 n ++ rest)) = some (.f64 (floatOf 5 10 n), rest) := by
    intro n hn
    have := readHead_long 7 25 n (by decide) (by decide) (by decide) (by simpa using hn) rest
    rw [dec.eq_def, show readHead (0xf9 :: (be 2 n ++ rest)) = _ from this]
    rfl
  cases f with
  | fin neg m e => exact absurd rfl (hf neg m e)
  | inf neg =>
    cases neg with
    | false => exact (key 0x7c00 (by decide)).trans (by rw [show floatOf 5 10 0x7c00 = .inf false by decide])
    | true => exact (key 0xfc00 (by decide)).trans (by rw [show floatOf 5 10 0xfc00 = .inf true by decide])
  | nan => exact (key 0x7e00 (by decide)).trans (by rw [show floatOf 5 10 0x7e00 = .nan by decide])

theorem special32 (levels : Nat) (f : GoFloat) (hf : ∀ neg m e, f ≠ .fin neg m e) : Good order levels (.f32 f) := by
  refine ⟨special f, ?_, fun rest => dec_special levels f hf rest⟩
  cases f with
  | fin neg m e => exact absurd rfl (hf neg m e)
  | inf => rfl
  | nan => rfl

theorem special64 (levels : Nat) (f : GoFloat) (hf : ∀ neg m e, f ≠ .fin neg m e) : Good order levels (.f64 f) := by
  refine ⟨special f, ?_, fun rest => dec_special levels f hf rest⟩
  cases f with
  | fin neg m e => exact absurd rfl (hf neg m e)
  | inf => rfl
  | nan => rfl

theorem good_f32 (levels : Nat) (f : GoFloat) (h : isFloat 8 23 f = true) : Good order levels (.f32 f) := by
  cases f with
  | fin neg m e =>
    obtain ⟨h1, h2⟩ := floatOf_bits 8 23 (by decide) neg m e h
    refine ⟨_, rfl, fun rest => ?_⟩
    have := readHead_long 7 26 (floatBits 8 23 neg m e) (by decide) (by decide) (by decide) (by simpa using h2) rest
    rw [List.cons_append, dec.eq_def]
    rw [show readHead (0xfa :: (be 4 (floatBits 8 23 neg m e) ++ rest)) = _ from this]
    simp [h1, cborWire, wire, cborLeaf]
  | inf neg => exact special32 order levels (.inf neg) (by simp)
  | nan => exact special32 order levels .nan (by simp)

theorem good_f64 (levels : Nat) (f : GoFloat) (h : isFloat 11 52 f = true) : Good order levels (.f64 f) := by
  cases f with
  | fin neg m e =>
    obtain ⟨h1, h2⟩ := floatOf_bits 11 52 (by decide) neg m e h
    refine ⟨_, rfl, fun rest => ?_⟩
    have := readHead_long 7 27 (floatBits 11 52 neg m e) (by decide) (by decide) (by decide) (by simpa using h2) rest
    rw [List.cons_append, dec.eq_def]
    rw [show readHead (0xfb :: (be 8 (floatBits 11 52 neg m e) ++ rest)) = _ from this]
    simp [h1, cborWire, wire, cborLeaf]
  | inf neg => exact special64 order levels (.inf neg) (by simp)
  | nan => exact special64 order levels .nan (by simp)

theorem good_map (horder : ∀ l, (order l).Perm l) (levels : Nat) (d : Dict) (hl : d.length ≤ 131072) (hs : sortedKeys d = true)
    (h : ∀ p ∈ d, text p.1 = true ∧ Good order levels p.2) : Good order (levels + 1) (.map d) := by
  -- every entry with the bytes of its value
  have key : ∀ d : Dict, (∀ p ∈ d, text p.1 = true ∧ Good order levels p.2) →
      ∃ ts : List (Str × Str × Val), encM order d = some (ts.map fun t => (t.1, t.2.1)) ∧
        d.map (fun p => (p.1, cborWire p.2)) = ts.map (fun t => (t.1, t.2.2)) ∧
        ∀ t ∈ ts, text t.1 = true ∧ ∀ rest, dec levels (t.2.1 ++ rest) = some (t.2.2, rest) := by
    intro d
    induction d with
    | nil => intro _; exact ⟨[], rfl, rfl, by simp⟩
    | cons p d ih =>
      intro h
      obtain ⟨ts, h1, h2, h3⟩ := ih fun q hq => h q (List.mem_cons_of_mem _ hq)
      obtain ⟨ht, b, hb, hd⟩ := h p (List.mem_cons_self ..)
      obtain ⟨k, v⟩ := p
      refine ⟨(k, b, cborWire v) :: ts, ?_, ?_, ?_⟩
      · simp only [encM, hb, h1, List.map_cons]
      · simp only [List.map_cons, h2]
      · intro t htm
        rcases List.mem_cons.1 htm with rfl | htm
        · exact ⟨ht, hd⟩
        · exact h3 t htm
  obtain ⟨ts, h1, h2, h3⟩ := key d h
  obtain ⟨ts', hp, he⟩ := perm_map_inv _ (horder (ts.map fun t => (t.1, t.2.1)))
  refine ⟨_, by simp only [enc, h1, Option.map_some]; rfl, fun rest => ?_⟩
  have hlen : ts'.length = d.length := by
    rw [hp.length_eq]
    have := congrArg List.length h2
    simpa using this.symm
  obtain ⟨info, hi⟩ := readHead_head 5 d.length (by decide) (by omega)
    (((order (ts.map fun t => (t.1, t.2.1))).flatMap fun p => head 3 p.1.length ++ p.1 ++ p.2) ++ rest)
  rw [List.append_assoc, dec.eq_def, hi]
  simp only
  rw [if_neg (by simp [maxElements]; omega), he, List.flatMap_map, ← hlen,
    seqOf_map (readPair (dec levels)) (fun t : Str × Str × Val => head 3 t.1.length ++ t.1 ++ t.2.1) (fun t => (t.1, t.2.2))]
  · simp only [cborWire, wire, wireM_map]
    rw [foldl_perm (d := d.map fun p => (p.1, cborWire p.2)) (by rw [sortedKeys_map]; exact hs)]
    · rfl
    · rw [h2]; exact hp.map _
  · intro t ht rest
    obtain ⟨g1, g2⟩ := h3 t (hp.mem_iff.1 ht)
    rw [readPair, List.append_assoc, readText_head _ g1]
    simp only [g2]

theorem good_arr (levels : Nat) (l : List Val) (hl : l.length ≤ 131072) (h : ∀ v ∈ l, Good order levels v) :
    Good order (levels + 1) (.arr l) := by
  have key : ∀ l : List Val, (∀ v ∈ l, Good order levels v) →
      ∃ ts : List (Str × Val), encL order l = some (ts.flatMap Prod.fst) ∧ l.map cborWire = ts.map Prod.snd ∧
        ∀ t ∈ ts, ∀ rest, dec levels (t.1 ++ rest) = some (t.2, rest) := by
    intro l
    induction l with
    | nil => intro _; exact ⟨[], rfl, rfl, by simp⟩
    | cons v l ih =>
      intro h
      obtain ⟨ts, h1, h2, h3⟩ := ih fun q hq => h q (List.mem_cons_of_mem _ hq)
      obtain ⟨b, hb, hd⟩ := h v (List.mem_cons_self ..)
      refine ⟨(b, cborWire v) :: ts, ?_, ?_, ?_⟩
      · simp only [encL, hb, h1, List.flatMap_cons]
      · simp only [List.map_cons, h2]
      · intro t htm
        rcases List.mem_cons.1 htm with rfl | htm
        · exact hd
        · exact h3 t htm
  obtain ⟨ts, h1, h2, h3⟩ := key l h
  have hlen : ts.length = l.length := by
    have := congrArg List.length h2
    simpa using this.symm
  refine ⟨_, by simp only [enc, h1, Option.map_some]; rfl, fun rest => ?_⟩
  obtain ⟨info, hi⟩ := readHead_head 4 l.length (by decide) (by omega) (ts.flatMap Prod.fst ++ rest)
  rw [List.append_assoc, dec.eq_def, hi]
  simp only
  rw [if_neg (by simp [maxElements]; omega), ← hlen, seqOf_map (dec levels) Prod.fst Prod.snd ts h3]
  simp only [cborWire, wire, wireL_map]
  rw [show List.map (wire cborLeaf) l = _ from h2]

theorem good_strs (levels : Nat) (l : List Str) (hl : l.length ≤ 131072) (h : ∀ s ∈ l, text s = true) :
    Good order (levels + 1) (.strs l) := by
  refine ⟨_, rfl, fun rest => ?_⟩
  obtain ⟨info, hi⟩ := readHead_head 4 l.length (by decide) (by omega) (l.flatMap (fun s => head 3 s.length ++ s) ++ rest)
  rw [List.append_assoc, dec.eq_def, hi]
  simp only
  rw [if_neg (by simp [maxElements]; omega), seqOf_map (dec levels) (fun s => head 3 s.length ++ s) Val.str l]
  · simp [cborWire, wire]
  · intro s hs rest
    exact dec_text levels s (h s hs) rest

theorem good_num (levels : Nat) (n : Nat) (h : n < 2 ^ 64) (rest : Str) : dec levels (head 0 n ++ rest) = some (.uint .u64 n, rest) := by
  obtain ⟨info, hi⟩ := readHead_head 0 n (by decide) h rest
  rw [dec.eq_def, hi]
  rfl

mutual
/-- What fits is written and read back. -/
theorem good (horder : ∀ l, (order l).Perm l) (levels : Nat) (v : Val) (h : fits levels v = true) : Good order levels v := by
  cases v with
  | nil => exact ⟨_, rfl, fun rest => by rw [dec.eq_def]; rfl⟩
  | bool b => cases b <;> exact ⟨_, rfl, fun rest => by rw [dec.eq_def]; rfl⟩
  | arrNil => exact ⟨_, rfl, fun rest => by rw [dec.eq_def]; rfl⟩
  | strsNil => exact ⟨_, rfl, fun rest => by rw [dec.eq_def]; rfl⟩
  | mapNil => exact ⟨_, rfl, fun rest => by rw [dec.eq_def]; rfl⟩
  | other t => simp [fits] at h
  | int k v =>
    simp only [fits, decide_eq_true_eq] at h
    refine ⟨_, rfl, fun rest => ?_⟩
    by_cases hv : 0 ≤ v
    · rw [if_pos hv, good_num levels _ (by omega)]
      simp [cborWire, wire, cborLeaf, hv]
    · rw [if_neg hv]
      obtain ⟨info, hi⟩ := readHead_head 1 (-1 - v).toNat (by decide) (by omega) rest
      rw [dec.eq_def, hi]
      simp only
      rw [if_pos (by omega)]
      have : (-1 - ((-1 - v).toNat : Int)) = v := by omega
      rw [this]
      simp [cborWire, wire, cborLeaf, hv]
  | uint k n =>
    simp only [fits, decide_eq_true_eq] at h
    refine ⟨_, rfl, fun rest => ?_⟩
    rw [good_num levels n h]
    simp [cborWire, wire, cborLeaf]
  | f32 f => exact good_f32 order levels f h
  | f64 f => exact good_f64 order levels f h
  | str s => exact ⟨_, rfl, fun rest => dec_text levels s h rest⟩
  | named s => exact ⟨_, rfl, fun rest => dec_text levels s h rest⟩
  | bytes b =>
    simp only [fits, decide_eq_true_eq] at h
    refine ⟨_, rfl, fun rest => ?_⟩
    obtain ⟨info, hi⟩ := readHead_head 2 b.length (by decide) h (b ++ rest)
    rw [List.append_assoc, dec.eq_def, hi]
    simp only [split_append]
    simp [cborWire, wire, cborLeaf]
  | strs l =>
    simp only [fits, Bool.and_eq_true, decide_eq_true_eq, List.all_eq_true] at h
    obtain ⟨levels, rfl⟩ : ∃ n, levels = n + 1 := ⟨levels - 1, by omega⟩
    exact good_strs order levels l h.1.2 h.2
  | arr l =>
    simp only [fits, Bool.and_eq_true, decide_eq_true_eq] at h
    obtain ⟨levels, rfl⟩ : ∃ n, levels = n + 1 := ⟨levels - 1, by omega⟩
    exact good_arr order levels l h.1.2 (goodL horder levels l h.2)
  | map d =>
    simp only [fits, Bool.and_eq_true, decide_eq_true_eq] at h
    obtain ⟨levels, rfl⟩ : ∃ n, levels = n + 1 := ⟨levels - 1, by omega⟩
    exact good_map order horder levels d h.1.1.2 h.1.2 (goodM horder levels d h.2)
termination_by sizeOf v
theorem goodL (horder : ∀ l, (order l).Perm l) (levels : Nat) (l : List Val) (h : fitsL levels l = true) : ∀ v ∈ l, Good order levels v := by
  cases l with
  | nil => intro v hv; cases hv
  | cons v l =>
    simp only [fitsL, Bool.and_eq_true] at h
    intro w hw
    rcases List.mem_cons.1 hw with hv | hw
    · rw [hv]; exact good horder levels v h.1
    · exact goodL horder levels l h.2 w hw
termination_by sizeOf l
theorem goodM (horder : ∀ l, (order l).Perm l) (levels : Nat) (d : List (Str × Val)) (h : fitsM levels d = true) :
    ∀ p ∈ d, text p.1 = true ∧ Good order levels p.2 := by
  match d, h with
  | [], _ => intro v hv; cases hv
  | (k, v) :: d, h =>
    simp only [fitsM, Bool.and_eq_true] at h
    intro w hw
    rcases List.mem_cons.1 hw with hv | hw
    · rw [hv]; exact ⟨h.1.1, good horder levels v h.1.2⟩
    · exact goodM horder levels d h.2 w hw
termination_by sizeOf d
end

end

end Wamp.Cbor
