import Verif.Spec.WellFormed
import Verif.Lemmas.FormatsJson
import Verif.Lemmas.FormatsMsgPack
/-!
# C127: malformed bytes are refused

C124 to C126 say that what the formats allow is understood.  Here the other direction: what is not well-formed (`Spec/WellFormed.lean`) is refused.
-/
namespace Wamp.Formats
open Wamp

/-! ## CBOR -/

theorem head_inv {s r : Str} {major info n : Nat} (h : Wamp.Cbor.readHead s = some (major, info, n, r)) :
    major < 8 ∧ ∃ hd, s = hd ++ r ∧ Head major n hd ∧ (hd.length = 2 → info = 24) := by
  cases s with
  | nil => cases h
  | cons c s =>
    have hc := c.toNat_lt
    simp only [Wamp.Cbor.readHead] at h
    split at h
    · rename_i hi
      simp only [Option.some.injEq, Prod.mk.injEq] at h
      obtain ⟨rfl, rfl, rfl, rfl⟩ := h
      refine ⟨by omega, [c], rfl, ?_, by simp⟩
      have := Head.small (major := c.toNat / 32) (c.toNat % 32) hi
      rwa [show 32 * (c.toNat / 32) + c.toNat % 32 = c.toNat by omega, UInt8.ofNat_toNat] at this
    · split at h
      · split at h
        · cases h
        · rename_i h1 h2 h3
          simp only [Option.some.injEq, Prod.mk.injEq] at h
          obtain ⟨rfl, rfl, rfl, rfl⟩ := h
          have hl : (s.take (2 ^ (c.toNat % 32 - 24))).length = 2 ^ (c.toNat % 32 - 24) := by rw [List.length_take]; omega
          refine ⟨by omega, c :: s.take (2 ^ (c.toNat % 32 - 24)), by rw [List.cons_append, List.take_append_drop], ?_, ?_⟩
          · have := Head.large (major := c.toNat / 32) (c.toNat % 32 - 24) (s.take (2 ^ (c.toNat % 32 - 24))) (by omega) hl
            rwa [show 32 * (c.toNat / 32) + 24 + (c.toNat % 32 - 24) = c.toNat by omega, UInt8.ofNat_toNat, bigEndian_ofBE] at this
          · intro h4
            rw [List.length_cons, hl] at h4
            have : c.toNat % 32 - 24 = 0 ∨ 1 ≤ c.toNat % 32 - 24 := by omega
            rcases this with h5 | h5
            · omega
            · have := Nat.pow_le_pow_right (n := 2) (by decide) h5
              omega
      · cases h

theorem split_inv {n : Nat} {s a r : Str} (h : Wamp.Cbor.split n s = some (a, r)) : s = a ++ r ∧ a.length = n := by
  rw [Wamp.Cbor.split] at h
  split at h
  · cases h
  · simp only [Option.some.injEq, Prod.mk.injEq] at h
    obtain ⟨rfl, rfl⟩ := h
    exact ⟨(List.take_append_drop ..).symm, by rw [List.length_take]; omega⟩

/-- The bytes that were read are items. -/
def ReadsItems (items : Nat → Str → Prop) (j : Nat) (s r : Str) : Prop := ∃ a, s = a ++ r ∧ ∀ k b, items k b → items (j + k) (a ++ b)

theorem seqOf_items {α : Type} {items : Nat → Str → Prop} {j : Nat} {f : Str → Option (α × Str)}
    (hf : ∀ s v r, f s = some (v, r) → ReadsItems items j s r) (n : Nat) (s r : Str) (l : List α) (h : Wamp.Cbor.seqOf f n s = some (l, r)) :
    ReadsItems items (j * n) s r := by
  induction n generalizing s l with
  | zero =>
    simp only [Wamp.Cbor.seqOf, Option.some.injEq, Prod.mk.injEq] at h
    obtain ⟨_, rfl⟩ := h
    exact ⟨[], rfl, fun k b hb => by rw [Nat.mul_zero, Nat.zero_add]; exact hb⟩
  | succ n ih =>
    rw [Wamp.Cbor.seqOf] at h
    cases h1 : f s with
    | none => rw [h1] at h; cases h
    | some p =>
      obtain ⟨v, s1⟩ := p
      simp only [h1] at h
      cases h2 : Wamp.Cbor.seqOf f n s1 with
      | none => rw [h2] at h; cases h
      | some q =>
        obtain ⟨l', s2⟩ := q
        simp only [h2, Option.some.injEq, Prod.mk.injEq] at h
        obtain ⟨_, rfl⟩ := h
        obtain ⟨a, rfl, ha⟩ := hf _ _ _ h1
        obtain ⟨a', rfl, ha'⟩ := ih _ _ h2
        refine ⟨a ++ a', by rw [List.append_assoc], fun k b hb => ?_⟩
        have := ha _ _ (ha' k b hb)
        rwa [← List.append_assoc, ← Nat.add_assoc, show j + j * n = j * (n + 1) by rw [Nat.mul_add, Nat.mul_one, Nat.add_comm]] at this

theorem cbor_leaf {h b : Str} {k : Nat} (hs : CborStart 0 h) (hb : CborItems k b) : CborItems (1 + k) (h ++ b) := by
  rw [Nat.add_comm]
  exact .item hs (by rw [Nat.zero_add]; exact hb)

theorem untilBreak_items {α : Type} {j : Nat} {f : Str → Option (α × Str)} (hf : ∀ s v r, f s = some (v, r) → ReadsItems CborItems j s r) (n : Nat) (s r : Str)
    (l : List α) (h : Wamp.Cbor.untilBreak f n s = some (l, r)) : ∃ a m, s = a ++ 0xff :: r ∧ CborItems (j * m) a := by
  have stop : ∀ s : Str, s.head? = some 0xff → s.tail = r → ∃ a m, s = a ++ 0xff :: r ∧ CborItems (j * m) a := by
    intro s h1 h2
    cases s with
    | nil => cases h1
    | cons c s =>
      simp only [List.head?_cons, Option.some.injEq] at h1
      simp only [List.tail_cons] at h2
      subst h1 h2
      exact ⟨[], 0, rfl, .done⟩
  induction n generalizing s l with
  | zero =>
    rw [Wamp.Cbor.untilBreak] at h
    split at h
    · rename_i hb
      simp only [Option.some.injEq, Prod.mk.injEq] at h
      exact stop s hb h.2
    · cases h
  | succ n ih =>
    rw [Wamp.Cbor.untilBreak] at h
    split at h
    · rename_i hb
      simp only [Option.some.injEq, Prod.mk.injEq] at h
      exact stop s hb h.2
    · split at h
      · cases h
      · rename_i v s1 h1
        split at h
        · cases h
        · rename_i l' s2 h2
          simp only [Option.some.injEq, Prod.mk.injEq] at h
          obtain ⟨_, rfl⟩ := h
          obtain ⟨a, rfl, ha⟩ := hf _ _ _ h1
          obtain ⟨a', m, rfl, ha'⟩ := ih _ _ h2
          refine ⟨a ++ a', m + 1, by rw [List.append_assoc], ?_⟩
          rw [Nat.mul_add, Nat.mul_one, Nat.add_comm]
          exact ha _ _ ha'

theorem chunk_inv {major : Nat} {s t r : Str} (h : Wamp.Cbor.chunk major s = some (t, r)) :
    ∃ hd, s = hd ++ t ++ r ∧ Head major t.length hd ∧ (major = 3 → Utf8 t) := by
  rw [Wamp.Cbor.chunk] at h
  split at h
  · cases h
  · rename_i m info n s1 h1
    obtain ⟨-, hd, rfl, hh, -⟩ := head_inv h1
    split at h
    · rename_i hm
      subst hm
      split at h
      · cases h
      · rename_i t' s2 h2
        split at h
        · cases h
        · rename_i hu
          simp only [Option.some.injEq, Prod.mk.injEq] at h
          obtain ⟨rfl, rfl⟩ := h
          obtain ⟨rfl, rfl⟩ := split_inv h2
          refine ⟨hd, by rw [List.append_assoc], hh, fun h3 => ?_⟩
          rw [← valid_iff]
          cases hv : Wamp.Cbor.validUtf8 t' with
          | true => rfl
          | false => exact absurd ⟨h3, hv⟩ hu
    · cases h

theorem chunks_inv {major : Nat} {s t r : Str} (h : Wamp.Cbor.chunks major s = some (t, r)) :
    ∃ cs : List (Str × Str), s = (cs.flatMap fun c => c.1 ++ c.2) ++ 0xff :: r ∧ ∀ c ∈ cs, Head major c.2.length c.1 ∧ (major = 3 → Utf8 c.2) := by
  have key : ∀ n s (l : List Str), Wamp.Cbor.untilBreak (Wamp.Cbor.chunk major) n s = some (l, r) →
      ∃ cs : List (Str × Str), s = (cs.flatMap fun c => c.1 ++ c.2) ++ 0xff :: r ∧ ∀ c ∈ cs, Head major c.2.length c.1 ∧ (major = 3 → Utf8 c.2) := by
    have stop : ∀ s : Str, s.head? = some 0xff → s.tail = r →
        ∃ cs : List (Str × Str), s = (cs.flatMap fun c => c.1 ++ c.2) ++ 0xff :: r ∧ ∀ c ∈ cs, Head major c.2.length c.1 ∧ (major = 3 → Utf8 c.2) := by
      intro s h1 h2
      cases s with
      | nil => cases h1
      | cons c s =>
        simp only [List.head?_cons, Option.some.injEq] at h1
        simp only [List.tail_cons] at h2
        subst h1 h2
        exact ⟨[], rfl, fun _ h => (nomatch h)⟩
    intro n
    induction n with
    | zero =>
      intro s l h
      rw [Wamp.Cbor.untilBreak] at h
      split at h
      · rename_i hb
        simp only [Option.some.injEq, Prod.mk.injEq] at h
        exact stop s hb h.2
      · cases h
    | succ n ih =>
      intro s l h
      rw [Wamp.Cbor.untilBreak] at h
      split at h
      · rename_i hb
        simp only [Option.some.injEq, Prod.mk.injEq] at h
        exact stop s hb h.2
      · split at h
        · cases h
        · rename_i v s1 h1
          split at h
          · cases h
          · rename_i l' s2 h2
            simp only [Option.some.injEq, Prod.mk.injEq] at h
            obtain ⟨_, rfl⟩ := h
            obtain ⟨hd, rfl, hh, hu⟩ := chunk_inv h1
            obtain ⟨cs, rfl, hcs⟩ := ih _ _ h2
            refine ⟨(hd, v) :: cs, by simp, fun c hc => ?_⟩
            cases hc with
            | head => exact ⟨hh, hu⟩
            | tail _ hc => exact hcs c hc
  rw [Wamp.Cbor.chunks] at h
  split at h
  · rename_i l s1 h1
    simp only [Option.some.injEq, Prod.mk.injEq] at h
    obtain ⟨_, rfl⟩ := h
    exact key _ _ _ h1
  · cases h

theorem head_tail {s : Str} {c : UInt8} (h : s.head? = some c) : s = c :: s.tail := by
  cases s with
  | nil => cases h
  | cons d s =>
    simp only [List.head?_cons, Option.some.injEq] at h
    rw [h, List.tail_cons]

theorem text_chunks_items {s r t : Str} (h7 : s.head? = some 0x7f) (h : Wamp.Cbor.chunks 3 s.tail = some (t, r)) : ReadsItems CborItems 1 s r := by
  obtain ⟨cs, e, hcs⟩ := chunks_inv h
  rw [head_tail h7, e]
  exact ⟨0x7f :: ((cs.flatMap fun c => c.1 ++ c.2) ++ [0xff]), by simp, fun k b hb => cbor_leaf (.textChunks fun c hc => ⟨(hcs c hc).1, (hcs c hc).2 rfl⟩) hb⟩

theorem cbor_text_items {s r t : Str} (h : Wamp.Cbor.readText s = some (t, r)) : ReadsItems CborItems 1 s r := by
  rw [Wamp.Cbor.readText] at h
  split at h
  · rename_i info n s1 h1
    split at h
    · rename_i t' s2 h2
      split at h
      · rename_i hv
        simp only [Option.some.injEq, Prod.mk.injEq] at h
        obtain ⟨rfl, rfl⟩ := h
        obtain ⟨-, hd, rfl, hh, -⟩ := head_inv h1
        obtain ⟨rfl, rfl⟩ := split_inv h2
        exact ⟨hd ++ t', by rw [List.append_assoc], fun k b hb => cbor_leaf (.text hh ((valid_iff _).1 hv)) hb⟩
      · cases h
    · cases h
  · split at h
    · rename_i h7
      exact text_chunks_items h7 h
    · cases h
  · cases h

theorem cbor_items (levels : Nat) (s r : Str) (v : Val) (h : Wamp.Cbor.dec levels s = some (v, r)) : ReadsItems CborItems 1 s r := by
  induction levels using Nat.strongRecOn generalizing s r v with
  | _ levels ih =>
    have pair : ∀ lv, lv < levels → ∀ s p r, Wamp.Cbor.readPair (Wamp.Cbor.dec lv) s = some (p, r) → ReadsItems CborItems 2 s r := by
      intro lv hlv s p r h
      rw [Wamp.Cbor.readPair] at h
      split at h
      · cases h
      · rename_i k s1 h1
        split at h
        · cases h
        · rename_i v s2 h2
          simp only [Option.some.injEq, Prod.mk.injEq] at h
          obtain ⟨_, rfl⟩ := h
          obtain ⟨a, rfl, ha⟩ := cbor_text_items h1
          obtain ⟨b, rfl, hb⟩ := ih lv hlv _ _ _ h2
          refine ⟨a ++ b, by rw [List.append_assoc], fun k c hc => ?_⟩
          have := ha _ _ (hb _ _ hc)
          rwa [← List.append_assoc, ← Nat.add_assoc] at this
    rw [Wamp.Cbor.dec.eq_def] at h
    split at h
    · split at h
      · rename_i h5
        split at h
        · rename_i t s2 h2
          simp only [Option.some.injEq, Prod.mk.injEq] at h
          obtain ⟨_, rfl⟩ := h
          obtain ⟨cs, e, hcs⟩ := chunks_inv h2
          rw [head_tail h5, e]
          exact ⟨0x5f :: ((cs.flatMap fun c => c.1 ++ c.2) ++ [0xff]), by simp, fun k b hb => cbor_leaf (.byteChunks fun c hc => (hcs c hc).1) hb⟩
        · cases h
      · split at h
        · rename_i h7
          split at h
          · rename_i t s2 h2
            simp only [Option.some.injEq, Prod.mk.injEq] at h
            obtain ⟨_, rfl⟩ := h
            exact text_chunks_items h7 h2
          · cases h
        · split at h
          · rename_i h9
            split at h
            · cases h
            · rename_i lv
              split at h
              · rename_i l s2 h2
                simp only [Option.some.injEq, Prod.mk.injEq] at h
                obtain ⟨_, rfl⟩ := h
                obtain ⟨a, m, e, ha⟩ := untilBreak_items (fun s v r h => ih lv (by omega) s r v h) _ _ _ _ h2
                rw [head_tail h9, e]
                refine ⟨0x9f :: (a ++ [0xff]), by simp, fun k b hb => ?_⟩
                have := CborItems.openList ha hb
                rw [Nat.add_comm]
                simpa using this
              · cases h
          · split at h
            · rename_i hb'
              split at h
              · cases h
              · rename_i lv
                split at h
                · rename_i l s2 h2
                  simp only [Option.some.injEq, Prod.mk.injEq] at h
                  obtain ⟨_, rfl⟩ := h
                  obtain ⟨a, m, e, ha⟩ := untilBreak_items (pair lv (by omega)) _ _ _ _ h2
                  rw [head_tail hb', e]
                  refine ⟨0xbf :: (a ++ [0xff]), by simp, fun k b hb => ?_⟩
                  have := CborItems.openDict ha hb
                  rw [Nat.add_comm]
                  simpa using this
                · cases h
            · cases h
    rename_i major info n s1 h1
    obtain ⟨hm, hd, rfl, hh, hi⟩ := head_inv h1
    clear h1
    split at h
    · -- unsigned
      simp only [Option.some.injEq, Prod.mk.injEq] at h
      obtain ⟨_, rfl⟩ := h
      exact ⟨hd, rfl, fun k b hb => cbor_leaf (.number (.inl rfl) hh) hb⟩
    · -- negative
      simp only [Option.some.injEq, Prod.mk.injEq] at h
      obtain ⟨_, rfl⟩ := h
      exact ⟨hd, rfl, fun k b hb => cbor_leaf (.number (.inr rfl) hh) hb⟩
    · -- bytes
      split at h
      · rename_i t s2 h2
        simp only [Option.some.injEq, Prod.mk.injEq] at h
        obtain ⟨_, rfl⟩ := h
        obtain ⟨rfl, rfl⟩ := split_inv h2
        exact ⟨hd ++ t, by rw [List.append_assoc], fun k b hb => cbor_leaf (.bytes hh) hb⟩
      · cases h
    · -- text
      split at h
      · rename_i t s2 h2
        split at h
        · rename_i hv
          simp only [Option.some.injEq, Prod.mk.injEq] at h
          obtain ⟨_, rfl⟩ := h
          obtain ⟨rfl, rfl⟩ := split_inv h2
          exact ⟨hd ++ t, by rw [List.append_assoc], fun k b hb => cbor_leaf (.text hh ((valid_iff _).1 hv)) hb⟩
        · cases h
      · cases h
    · -- list
      split at h
      · cases h
      · rename_i lv
        split at h
        · cases h
        · split at h
          · rename_i l s2 h2
            simp only [Option.some.injEq, Prod.mk.injEq] at h
            obtain ⟨_, rfl⟩ := h
            obtain ⟨a, rfl, ha⟩ := seqOf_items (fun s v r h => ih lv (by omega) s r v h) _ _ _ _ h2
            refine ⟨hd ++ a, by rw [List.append_assoc], fun k b hb => ?_⟩
            have := ha k b hb
            rw [Nat.one_mul] at this
            rw [Nat.add_comm, List.append_assoc]
            exact .item (.list hh) this
          · cases h
    · -- map
      split at h
      · cases h
      · rename_i lv
        split at h
        · cases h
        · split at h
          · rename_i l s2 h2
            simp only [Option.some.injEq, Prod.mk.injEq] at h
            obtain ⟨_, rfl⟩ := h
            obtain ⟨a, rfl, ha⟩ := seqOf_items (pair lv (by omega)) _ _ _ _ h2
            refine ⟨hd ++ a, by rw [List.append_assoc], fun k b hb => ?_⟩
            rw [Nat.add_comm, List.append_assoc]
            exact .item (.dict hh) (ha k b hb)
          · cases h
    · -- tag
      split at h
      · cases h
      · rename_i lv
        split at h
        · rename_i v' s2 h2
          simp only [Option.some.injEq, Prod.mk.injEq] at h
          obtain ⟨_, rfl⟩ := h
          obtain ⟨a, rfl, ha⟩ := ih lv (by omega) _ _ _ h2
          refine ⟨hd ++ a, by rw [List.append_assoc], fun k b hb => ?_⟩
          rw [Nat.add_comm, List.append_assoc]
          exact .item (.tag hh) (ha k b hb)
        · cases h
    · -- simple values and floats
      rename_i g0 g1 g2 g3 g4 g5 g6
      have h7 : major = 7 := by
        have : major ≠ 0 ∧ major ≠ 1 ∧ major ≠ 2 ∧ major ≠ 3 ∧ major ≠ 4 ∧ major ≠ 5 ∧ major ≠ 6 := ⟨g0, g1, g2, g3, g4, g5, g6⟩
        omega
      subst h7
      have key : (hd.length = 2 → 32 ≤ n) → ReadsItems CborItems 1 (hd ++ s1) s1 := fun hn =>
        ⟨hd, rfl, fun k b hb => cbor_leaf (.simple hh hn) hb⟩
      have fin : (info = 24 → 32 ≤ n) ∧ s1 = r := by
        split at h
        · simp only [Option.some.injEq, Prod.mk.injEq] at h
          exact ⟨by omega, h.2⟩
        · split at h
          all_goals try (simp only [Option.some.injEq, Prod.mk.injEq] at h; exact ⟨by simp, h.2⟩)
          · split at h
            · cases h
            · simp only [Option.some.injEq, Prod.mk.injEq] at h
              exact ⟨fun _ => by omega, h.2⟩
          · rename_i hne
            simp only [Option.some.injEq, Prod.mk.injEq] at h
            exact ⟨fun h24 => absurd h24 (by assumption), h.2⟩
      obtain ⟨f1, rfl⟩ := fin
      exact key fun hl => f1 (hi hl)

/-- **C127** What `Deserialize` of the CBOR serializer does not refuse is one well-formed CBOR item and nothing else. -/
theorem C127_cbor (order : List (Str × Str) → List (Str × Str)) (b : Str) (h : ¬ CborItems 1 b) : (Wamp.Cbor.codec order).deserialize b = .err := by
  have hd : Wamp.Cbor.decode b = none := by
    rw [Wamp.Cbor.decode]
    split
    · rename_i l h1
      obtain ⟨a, rfl, ha⟩ := cbor_items _ _ _ _ h1
      exact absurd (ha 0 [] .done) h
    · rename_i h1
      obtain ⟨a, rfl, ha⟩ := cbor_items _ _ _ _ h1
      exact absurd (ha 0 [] .done) h
    · rfl
  simp only [Codec.deserialize, Wamp.Cbor.codec, hd, Res.ofOption]
  rfl

/-! ## MsgPack -/

/-- What the code byte `c` announces is what the specification says. -/
def itemCase (c : UInt8) : Bool :=
  match MsgPack.item c.toNat with
  | .val _ => c.toNat < 0x80 || 0xe0 ≤ c.toNat || c = 0xc0 || c = 0xc2 || c = 0xc3
  | .num k _ => decide ((c, k) ∈ [((0xca : UInt8), 4), (0xcb, 8), (0xcc, 1), (0xcd, 2), (0xce, 4), (0xcf, 8), (0xd0, 1), (0xd1, 2), (0xd2, 4), (0xd3, 8)])
  | .str k len => (k = 0 && c = UInt8.ofNat (0xa0 + len) && len < 32) || (c, k) ∈ [((0xd9 : UInt8), 1), (0xda, 2), (0xdb, 4)]
  | .bin k => (c, k) ∈ [((0xc4 : UInt8), 1), (0xc5, 2), (0xc6, 4)]
  | .arr k len => (k = 0 && c = UInt8.ofNat (0x90 + len) && len < 16) || (c, k) ∈ [((0xdc : UInt8), 2), (0xdd, 4)]
  | .map k len => (k = 0 && c = UInt8.ofNat (0x80 + len) && len < 16) || (c, k) ∈ [((0xde : UInt8), 2), (0xdf, 4)]
  | .bad => true

theorem itemCase_all : ∀ n : Fin 256, itemCase (UInt8.ofNat n.val) = true := by decide +kernel

theorem item_case (c : UInt8) : itemCase c = true := by
  have := itemCase_all ⟨c.toNat, c.toNat_lt⟩
  rwa [UInt8.ofNat_toNat] at this

theorem readNum_inv {k n : Nat} {s r : Str} (h : MsgPack.readNum k s = some (n, r)) : ∃ a, s = a ++ r ∧ a.length = k ∧ n = bigEndian a := by
  rw [MsgPack.readNum] at h
  split at h
  · rename_i a s' h1
    simp only [Option.some.injEq, Prod.mk.injEq] at h
    obtain ⟨rfl, rfl⟩ := h
    obtain ⟨rfl, rfl⟩ := split_inv h1
    exact ⟨a, rfl, rfl, (bigEndian_ofBE a).symm⟩
  · cases h

theorem readLen_inv {fix limit k len n : Nat} {codes : List (UInt8 × Nat)} {c : UInt8} {s r : Str} (h : MsgPack.readLen k len s = some (n, r))
    (hpos : ∀ p ∈ codes, 0 < p.2) (hc : (k = 0 ∧ c = UInt8.ofNat (fix + len) ∧ len < limit) ∨ (c, k) ∈ codes) :
    ∃ a, s = a ++ r ∧ Len fix limit codes n (c :: a) := by
  rw [MsgPack.readLen] at h
  split at h
  · rename_i hk
    simp only [Option.some.injEq, Prod.mk.injEq] at h
    obtain ⟨rfl, rfl⟩ := h
    rcases hc with ⟨-, rfl, hl⟩ | hc
    · exact ⟨[], rfl, .fix _ hl⟩
    · have := hpos _ hc
      omega
  · rename_i hk
    obtain ⟨a, rfl, ha, rfl⟩ := readNum_inv h
    rcases hc with ⟨h0, -, -⟩ | hc
    · exact absurd h0 hk
    · exact ⟨a, rfl, .code c a (by rw [ha]; exact hc)⟩

theorem msgpack_text_items {s r t : Str} (h : MsgPack.readText s = some (t, r)) : ReadsItems MsgPackItems 1 s r := by
  cases s with
  | nil => cases h
  | cons c s =>
    have hi := item_case c
    rw [MsgPack.readText] at h
    rw [itemCase] at hi
    split at h
    · rename_i k len h1
      rw [h1] at hi
      split at h
      · rename_i n s1 h2
        obtain ⟨rfl, rfl⟩ := split_inv h
        obtain ⟨a, rfl, ha⟩ := readLen_inv (codes := [((0xd9 : UInt8), 1), (0xda, 2), (0xdb, 4)]) (fix := 0xa0) (limit := 32) (c := c) h2 (by decide)
          (by simpa [and_assoc] using hi)
        refine ⟨c :: a ++ t, by simp, fun k b hb => ?_⟩
        rw [Nat.add_comm]
        exact .text ha hb
      · cases h
    · cases h

theorem msgpack_objects (fuel : Nat) (s r : Str) (v : Val) (h : MsgPack.dec fuel s = some (v, r)) : ReadsItems MsgPackItems 1 s r := by
  induction fuel using Nat.strongRecOn generalizing s r v with
  | _ fuel ih =>
    have pair : ∀ lv, lv < fuel → ∀ s p r, MsgPack.readPair (MsgPack.dec lv) s = some (p, r) → ReadsItems MsgPackItems 2 s r := by
      intro lv hlv s p r h
      rw [MsgPack.readPair] at h
      split at h
      · cases h
      · rename_i k s1 h1
        split at h
        · cases h
        · rename_i v s2 h2
          simp only [Option.some.injEq, Prod.mk.injEq] at h
          obtain ⟨_, rfl⟩ := h
          obtain ⟨a, rfl, ha⟩ := msgpack_text_items h1
          obtain ⟨b, rfl, hb⟩ := ih lv hlv _ _ _ h2
          refine ⟨a ++ b, by rw [List.append_assoc], fun k c hc => ?_⟩
          have := ha _ _ (hb _ _ hc)
          rwa [← List.append_assoc, ← Nat.add_assoc] at this
    cases s with
    | nil => rw [MsgPack.dec.eq_def] at h; cases h
    | cons c s =>
      have hi := item_case c
      rw [itemCase] at hi
      rw [MsgPack.dec.eq_def] at h
      dsimp only at h
      split at h
      · rename_i v' h1
        rw [h1] at hi
        simp only [Option.some.injEq, Prod.mk.injEq] at h
        obtain ⟨_, rfl⟩ := h
        refine ⟨[c], rfl, fun k b hb => ?_⟩
        rw [Nat.add_comm]
        exact .code (by simpa [or_assoc] using hi) hb
      · rename_i k f h1
        rw [h1] at hi
        split at h
        · rename_i n s1 h2
          simp only [Option.some.injEq, Prod.mk.injEq] at h
          obtain ⟨_, rfl⟩ := h
          obtain ⟨a, rfl, ha, rfl⟩ := readNum_inv h2
          refine ⟨c :: a, rfl, fun k b hb => ?_⟩
          rw [Nat.add_comm]
          exact .number (by rw [ha]; exact of_decide_eq_true hi) hb
        · cases h
      · rename_i k h1
        rw [h1] at hi
        split at h
        · rename_i n s1 h2
          split at h
          · rename_i t s2 h3
            simp only [Option.some.injEq, Prod.mk.injEq] at h
            obtain ⟨_, rfl⟩ := h
            obtain ⟨a, rfl, ha, rfl⟩ := readNum_inv h2
            obtain ⟨rfl, hl⟩ := split_inv h3
            refine ⟨c :: a ++ t, by simp, fun k b hb => ?_⟩
            rw [Nat.add_comm]
            exact .bytes (by rw [hl]; exact Len.code c a (by rw [ha]; exact of_decide_eq_true hi)) hb
          · cases h
        · cases h
      · rename_i k len h1
        rw [h1] at hi
        split at h
        · rename_i n s1 h2
          split at h
          · rename_i t s2 h3
            simp only [Option.some.injEq, Prod.mk.injEq] at h
            obtain ⟨_, rfl⟩ := h
            obtain ⟨rfl, rfl⟩ := split_inv h3
            obtain ⟨a, rfl, ha⟩ := readLen_inv (codes := [((0xd9 : UInt8), 1), (0xda, 2), (0xdb, 4)]) (fix := 0xa0) (limit := 32) (c := c) h2 (by decide)
              (by simpa [and_assoc] using hi)
            refine ⟨c :: a ++ t, by simp, fun k b hb => ?_⟩
            rw [Nat.add_comm]
            exact .text ha hb
          · cases h
        · cases h
      · rename_i k len h1
        rw [h1] at hi
        split at h
        · cases h
        · rename_i lv
          split at h
          · rename_i n s1 h2
            split at h
            · rename_i l s2 h3
              simp only [Option.some.injEq, Prod.mk.injEq] at h
              obtain ⟨_, rfl⟩ := h
              obtain ⟨a, rfl, ha⟩ := readLen_inv (codes := [((0xdc : UInt8), 2), (0xdd, 4)]) (fix := 0x90) (limit := 16) (c := c) h2 (by decide)
                (by simpa [and_assoc] using hi)
              obtain ⟨a', rfl, ha'⟩ := seqOf_items (fun s v r h => ih lv (by omega) s r v h) _ _ _ _ h3
              refine ⟨c :: a ++ a', by simp, fun k b hb => ?_⟩
              have := ha' k b hb
              rw [Nat.one_mul] at this
              rw [Nat.add_comm, List.append_assoc]
              exact .list ha this
            · cases h
          · cases h
      · rename_i k len h1
        rw [h1] at hi
        split at h
        · cases h
        · rename_i lv
          split at h
          · rename_i n s1 h2
            split at h
            · rename_i l s2 h3
              simp only [Option.some.injEq, Prod.mk.injEq] at h
              obtain ⟨_, rfl⟩ := h
              obtain ⟨a, rfl, ha⟩ := readLen_inv (codes := [((0xde : UInt8), 2), (0xdf, 4)]) (fix := 0x80) (limit := 16) (c := c) h2 (by decide)
                (by simpa [and_assoc] using hi)
              obtain ⟨a', rfl, ha'⟩ := seqOf_items (pair lv (by omega)) _ _ _ _ h3
              refine ⟨c :: a ++ a', by simp, fun k b hb => ?_⟩
              rw [Nat.add_comm, List.append_assoc]
              exact .dict ha (ha' k b hb)
            · cases h
          · cases h
      · cases h

/-- **C127** What `Deserialize` of the MsgPack serializer does not refuse begins with a well-formed MsgPack object. -/
theorem C127_msgpack (order : List (Str × Str) → List (Str × Str)) (b : Str) (h : ∀ a rest, b = a ++ rest → ¬ MsgPackItems 1 a) :
    (MsgPack.codec order).deserialize b = .err := by
  have hd : MsgPack.decode b = none := by
    cases h1 : MsgPack.dec b.length b with
    | none => rw [MsgPack.decode, h1]
    | some p =>
      obtain ⟨a, h2, ha⟩ := msgpack_objects _ _ _ _ h1
      have := ha 0 [] .done
      rw [List.append_nil] at this
      exact absurd this (h a _ h2)
  simp only [Codec.deserialize, MsgPack.codec, hd, Res.ofOption]
  rfl

/-! ## JSON -/

theorem hex_inv {h : UInt8} {n : Nat} (hh : hexVal h = some n) : Hex n h := by
  have e : UInt8.ofNat h.toNat = h := UInt8.ofNat_toNat
  simp only [hexVal] at hh
  split at hh
  · simp only [Option.some.injEq] at hh
    exact .inl ⟨by omega, by rw [← e]; congr 1; omega⟩
  · split at hh
    · simp only [Option.some.injEq] at hh
      exact .inr ⟨by omega, by omega, .inl (by rw [← e]; congr 1; omega)⟩
    · split at hh
      · simp only [Option.some.injEq] at hh
        exact .inr ⟨by omega, by omega, .inr (by rw [← e]; congr 1; omega)⟩
      · cases hh

theorem hex4_inv {a b c d : UInt8} {n : Nat} (h : Json.hex4 a b c d = some n) : Hex4 n [a, b, c, d] := by
  rw [Json.hex4] at h
  split at h
  · rename_i x y z w h1 h2 h3 h4
    simp only [Option.some.injEq] at h
    exact ⟨x, y, z, w, a, b, c, d, rfl, by omega, hex_inv h1, hex_inv h2, hex_inv h3, hex_inv h4⟩
  · cases h

theorem simpleEscape_inv {c b : UInt8} (h : Json.simpleEscape c = some b) : ∃ p ∈ shorthands, p.2 = c := by
  simp only [Json.simpleEscape] at h
  repeat' split at h
  all_goals first | (subst_vars; simp [shorthands]; done) | cases h

theorem prepend_inv {p t r : Str} {x : Option (Str × Str)} (h : Json.prepend p x = some (t, r)) : ∃ t', x = some (t', r) := by
  cases x with
  | none => cases h
  | some q =>
    obtain ⟨t', r'⟩ := q
    simp only [Json.prepend, Option.some.injEq, Prod.mk.injEq] at h
    exact ⟨t', by rw [h.2]⟩

theorem plain_byte {c : UInt8} (h : ¬ c.toNat < 0x80) : 0x20 ≤ c.toNat ∧ c ≠ 0x22 ∧ c ≠ 0x5c := by
  refine ⟨by omega, ?_, ?_⟩ <;> rintro rfl <;> exact h (by decide)

theorem within_high {c : UInt8} {lo hi : Nat} (h : Wamp.Cbor.within c lo hi = true) (hl : 0x80 ≤ lo) : ¬ c.toNat < 0x80 := by
  simp only [Wamp.Cbor.within, Bool.and_eq_true, decide_eq_true_eq] at h
  omega

theorem unescape_inv (n : Nat) (hi : Option Nat) (s t r : Str) (hn : s.length ≤ n) (h : Json.unescape hi s = some (t, r)) :
    ∃ a, s = a ++ 0x22 :: r ∧ JsonChars a := by
  induction n generalizing hi s t with
  | zero =>
    have : s = [] := List.length_eq_zero_iff.1 (by omega)
    subst this
    rw [Json.unescape.eq_def] at h
    cases h
  | succ n ih =>
    rw [Json.unescape.eq_def] at h
    cases s with
    | nil => cases h
    | cons x r1 =>
      rw [List.length_cons] at hn
      dsimp only at h
      split at h
      · rename_i hx
        simp only [Option.some.injEq, Prod.mk.injEq] at h
        exact ⟨[], by rw [hx, h.2]; rfl, .done⟩
      rename_i hx
      split at h
      · rename_i hx'
        subst hx'
        cases r1 with
        | nil => cases h
        | cons c r2 =>
          rw [List.length_cons] at hn
          dsimp only at h
          split at h
          · rename_i hc
            subst hc
            split at h
            · rename_i h1 h2 h3 h4 r3
              split at h
              · cases h
              · rename_i u hu
                simp only [List.length_cons] at hn
                obtain ⟨t', h5⟩ := prepend_inv h
                obtain ⟨a, rfl, ha⟩ := ih _ _ _ (by omega) h5
                exact ⟨0x5c :: 0x75 :: [h1, h2, h3, h4] ++ a, rfl, .hex (hex4_inv hu) ha⟩
            · cases h
          · split at h
            · rename_i b hb
              obtain ⟨t', h5⟩ := prepend_inv h
              obtain ⟨a, rfl, ha⟩ := ih _ _ _ (by omega) h5
              obtain ⟨p, hp, rfl⟩ := simpleEscape_inv hb
              exact ⟨0x5c :: p.2 :: a, rfl, .short hp ha⟩
            · cases h
      rename_i hx'
      split at h
      · cases h
      rename_i h20
      have hp : 0x20 ≤ x.toNat := by
        have : ¬ x.toNat < 0x20 := h20
        omega
      split at h
      · obtain ⟨t', h5⟩ := prepend_inv h
        obtain ⟨a, rfl, ha⟩ := ih _ _ _ (by omega) h5
        exact ⟨x :: a, rfl, .plain hp hx hx' ha⟩
      cases r1 with
      | nil => cases h
      | cons b r2 =>
        rw [List.length_cons] at hn
        dsimp only at h
        split at h
        · rename_i h2
          simp only [Json.two, Bool.and_eq_true] at h2
          obtain ⟨b1, b2, b3⟩ := plain_byte (within_high h2.2 (by decide))
          obtain ⟨t', h5⟩ := prepend_inv h
          obtain ⟨a, rfl, ha⟩ := ih _ _ _ (by omega) h5
          exact ⟨x :: b :: a, rfl, .plain hp hx hx' (.plain b1 b2 b3 ha)⟩
        cases r2 with
        | nil =>
          obtain ⟨t', h5⟩ := prepend_inv h
          obtain ⟨a, h6, ha⟩ := ih _ _ _ (by simp at hn ⊢; omega) h5
          exact ⟨x :: a, by rw [h6]; rfl, .plain hp hx hx' ha⟩
        | cons c r3 =>
          rw [List.length_cons] at hn
          dsimp only at h
          split at h
          · rename_i h3
            simp only [Json.three, Bool.and_eq_true] at h3
            obtain ⟨b1, b2, b3⟩ := plain_byte (within_high h3.1.2 (by split <;> decide))
            obtain ⟨c1, c2, c3⟩ := plain_byte (within_high h3.2 (by decide))
            obtain ⟨t', h5⟩ := prepend_inv h
            obtain ⟨a, rfl, ha⟩ := ih _ _ _ (by omega) h5
            exact ⟨x :: b :: c :: a, rfl, .plain hp hx hx' (.plain b1 b2 b3 (.plain c1 c2 c3 ha))⟩
          cases r3 with
          | nil =>
            obtain ⟨t', h5⟩ := prepend_inv h
            obtain ⟨a, h6, ha⟩ := ih _ _ _ (by simp at hn ⊢; omega) h5
            exact ⟨x :: a, by rw [h6]; rfl, .plain hp hx hx' ha⟩
          | cons d r4 =>
            rw [List.length_cons] at hn
            dsimp only at h
            split at h
            · rename_i h4
              simp only [Json.four, Bool.and_eq_true] at h4
              obtain ⟨b1, b2, b3⟩ := plain_byte (within_high h4.1.2 (by split <;> decide))
              obtain ⟨c1, c2, c3⟩ := plain_byte (within_high h4.2.1 (by decide))
              obtain ⟨d1, d2, d3⟩ := plain_byte (within_high h4.2.2 (by decide))
              obtain ⟨t', h5⟩ := prepend_inv h
              obtain ⟨a, rfl, ha⟩ := ih _ _ _ (by omega) h5
              exact ⟨x :: b :: c :: d :: a, rfl, .plain hp hx hx' (.plain b1 b2 b3 (.plain c1 c2 c3 (.plain d1 d2 d3 ha)))⟩
            · obtain ⟨t', h5⟩ := prepend_inv h
              obtain ⟨a, h6, ha⟩ := ih _ _ _ (by simp; omega) h5
              exact ⟨x :: a, by rw [h6]; rfl, .plain hp hx hx' ha⟩

theorem skip_inv (s : Str) : ∃ w, Space w ∧ s = w ++ Json.skip s := by
  induction s with
  | nil => exact ⟨[], space_nil, rfl⟩
  | cons c s ih =>
    rw [Json.skip, List.dropWhile_cons]
    split
    · rename_i hc
      obtain ⟨w, hw, h⟩ := ih
      refine ⟨c :: w, ?_, congrArg (c :: ·) h⟩
      intro x hx
      rcases List.mem_cons.1 hx with rfl | hx
      · simp only [Json.isSpace, Bool.or_eq_true, decide_eq_true_eq] at hc
        rcases hc with (h | h) | (h | h)
        · exact .inl h
        · exact .inr (.inl h)
        · exact .inr (.inr (.inl h))
        · exact .inr (.inr (.inr h))
      · exact hw x hx
    · exact ⟨[], space_nil, rfl⟩

theorem space_append {a b : Str} (ha : Space a) (hb : Space b) : Space (a ++ b) := by
  intro c hc
  rcases List.mem_append.1 hc with h | h
  · exact ha c h
  · exact hb c h

/-- White space may follow a value. -/
theorem json_trail {s w : Str} (h : JsonText .value s) (hw : Space w) : JsonText .value (s ++ w) := by
  generalize hr : Rule.value = rule at h
  cases h <;> (try cases hr) <;> rw [List.append_assoc]
  · exact .name (by assumption) (by assumption) (space_append (by assumption) hw)
  · exact .number (by assumption) (by assumption) (space_append (by assumption) hw)
  · exact .text (by assumption) (by assumption) (space_append (by assumption) hw)
  · rename_i h1 h2 h3; exact .empty h1 h2 (space_append h3 hw)
  · exact .list (by assumption) (by assumption) (space_append (by assumption) hw)
  · rename_i h1 h2 h3; exact .nothing h1 h2 (space_append h3 hw)
  · exact .object (by assumption) (by assumption) (space_append (by assumption) hw)

/-- What `f` reads begins with a `P`. -/
def Begins {α : Type} (P : Str → Prop) (f : Str → Option (α × Str)) : Prop := ∀ s v r, f s = some (v, r) → ∃ a, s = a ++ r ∧ P a

theorem listOf_inv {α : Type} {P Q : Str → Prop} {f : Str → Option (α × Str)} {close : UInt8} (hf : Begins P f) (trail : ∀ a w, P a → Space w → P (a ++ w))
    (one : ∀ a, P a → Q a) (more : ∀ a b, P a → Q b → Q (a ++ 0x2c :: b)) (n : Nat) (s r : Str) (l : List α)
    (h : Json.listOf f close n s = some (l, r)) : ∃ a, s = a ++ close :: r ∧ Q a := by
  induction n generalizing s l with
  | zero => rw [Json.listOf] at h; cases h
  | succ n ih =>
    rw [Json.listOf] at h
    split at h
    · cases h
    · rename_i v s1 h1
      obtain ⟨a, rfl, ha⟩ := hf _ _ _ h1
      obtain ⟨w, hw, e⟩ := skip_inv s1
      split at h
      · cases h
      · rename_i c s2 h2
        rw [h2] at e
        subst e
        split at h
        · rename_i hc
          subst hc
          simp only [Option.some.injEq, Prod.mk.injEq] at h
          obtain ⟨_, rfl⟩ := h
          exact ⟨a ++ w, by rw [List.append_assoc], one _ (trail _ _ ha hw)⟩
        · split at h
          · rename_i hc
            subst hc
            split at h
            · rename_i l' s3 h3
              simp only [Option.some.injEq, Prod.mk.injEq] at h
              obtain ⟨_, rfl⟩ := h
              obtain ⟨b, rfl, hb⟩ := ih _ _ h3
              exact ⟨a ++ w ++ 0x2c :: b, by simp, more _ _ (trail _ _ ha hw) hb⟩
            · cases h
          · cases h

theorem items_inv {α : Type} {P Q : Str → Prop} {f : Str → Option (α × Str)} {close : UInt8} (hf : Begins P f) (trail : ∀ a w, P a → Space w → P (a ++ w))
    (one : ∀ a, P a → Q a) (more : ∀ a b, P a → Q b → Q (a ++ 0x2c :: b)) (s r : Str) (l : List α)
    (h : Json.items f close s = some (l, r)) : ∃ a, s = a ++ close :: r ∧ (Space a ∨ Q a) := by
  rw [Json.items] at h
  split at h
  · cases h
  · rename_i c r' h1
    split at h
    · rename_i hc
      subst hc
      simp only [Option.some.injEq, Prod.mk.injEq] at h
      obtain ⟨_, rfl⟩ := h
      obtain ⟨w, hw, e⟩ := skip_inv s
      rw [h1] at e
      exact ⟨w, e, .inl hw⟩
    · obtain ⟨a, e, ha⟩ := listOf_inv hf trail one more _ _ _ _ h
      exact ⟨a, e, .inr ha⟩

/-- A member of an object. -/
def Member (a : Str) : Prop :=
  ∃ k s w1 w2, JsonChars k ∧ Space w1 ∧ Space w2 ∧ JsonText .value s ∧ a = w1 ++ (0x22 :: (k ++ [0x22])) ++ w2 ++ 0x3a :: s

theorem readPair_inv {f : Str → Option (Val × Str)} (hf : Begins (JsonText .value) f) : Begins Member (Json.readPair f) := by
  intro s v r h
  rw [Json.readPair] at h
  obtain ⟨w, hw, e⟩ := skip_inv s
  split at h
  · rename_i s1 h1
    rw [h1] at e
    subst e
    split at h
    · cases h
    · rename_i k s2 h2
      obtain ⟨a, rfl, ha⟩ := unescape_inv _ _ _ _ _ (Nat.le_refl _) h2
      obtain ⟨w', hw', e'⟩ := skip_inv s2
      split at h
      · rename_i s3 h3
        rw [h3] at e'
        subst e'
        split at h
        · cases h
        · rename_i v' s4 h4
          simp only [Option.some.injEq, Prod.mk.injEq] at h
          obtain ⟨_, rfl⟩ := h
          obtain ⟨b, rfl, hb⟩ := hf _ _ _ h4
          exact ⟨_, by simp, a, b, w, w', ha, hw, hw', hb, rfl⟩
      · cases h
  · cases h

theorem json_begins (levels : Nat) : Begins (JsonText .value) (Json.dec levels) := by
  induction levels using Nat.strongRecOn with
  | _ levels ih =>
    intro s v r h
    obtain ⟨w, hw, e⟩ := skip_inv s
    rw [Json.dec.eq_def] at h
    split at h
    · cases h
    rename_i c s1 h1
    rw [h1] at e
    subst e
    clear h1
    split at h
    · rename_i hc
      subst hc
      split at h
      · rename_i t s2 h2
        simp only [Option.some.injEq, Prod.mk.injEq] at h
        obtain ⟨_, rfl⟩ := h
        obtain ⟨a, rfl, ha⟩ := unescape_inv _ _ _ _ _ (Nat.le_refl _) h2
        exact ⟨_, by simp, .text ha hw space_nil⟩
      · cases h
    split at h
    · rename_i hc
      subst hc
      split at h
      · cases h
      · rename_i lv
        split at h
        · rename_i l s2 h2
          simp only [Option.some.injEq, Prod.mk.injEq] at h
          obtain ⟨_, rfl⟩ := h
          obtain ⟨a, rfl, ha⟩ := items_inv (Q := JsonText .elements) (ih lv (by omega)) (fun _ _ => json_trail) (fun _ => .one) (fun _ _ => .more) _ _ _ h2
          rcases ha with ha | ha
          · exact ⟨_, by simp, .empty ha hw space_nil⟩
          · exact ⟨_, by simp, .list ha hw space_nil⟩
        · cases h
    split at h
    · rename_i hc
      subst hc
      split at h
      · cases h
      · rename_i lv
        split at h
        · rename_i l s2 h2
          simp only [Option.some.injEq, Prod.mk.injEq] at h
          obtain ⟨_, rfl⟩ := h
          obtain ⟨a, rfl, ha⟩ := items_inv (Q := JsonText .members) (readPair_inv (ih lv (by omega)))
            (by
              rintro _ w3 ⟨k, s, w1, w2, hk, h1, h2, hs, rfl⟩ hw3
              exact ⟨k, s ++ w3, w1, w2, hk, h1, h2, json_trail hs hw3, by simp⟩)
            (by
              rintro _ ⟨k, s, w1, w2, hk, h1, h2, hs, rfl⟩
              exact .last hk h1 h2 hs)
            (by
              rintro _ b ⟨k, s, w1, w2, hk, h1, h2, hs, rfl⟩ hb
              have := JsonText.member hk h1 h2 hs hb
              simpa using this) _ _ _ h2
          rcases ha with ha | ha
          · exact ⟨_, by simp, .nothing ha hw space_nil⟩
          · exact ⟨_, by simp, .object ha hw space_nil⟩
        · cases h
    split at h
    · dsimp only at h
      split at h
      · rename_i hnum
        split at h
        · simp only [Option.some.injEq, Prod.mk.injEq] at h
          obtain ⟨_, rfl⟩ := h
          refine ⟨_, ?_, .number ((isNumber_iff _).1 hnum) hw space_nil⟩
          rw [List.append_nil, List.append_assoc, List.takeWhile_append_dropWhile]
        · cases h
      · cases h
    · rw [Json.literal.eq_def] at h
      split at h
      · rename_i e
        simp only [Option.some.injEq, Prod.mk.injEq] at h
        obtain ⟨_, rfl⟩ := h
        rw [e]
        exact ⟨_, by rw [show str "null" = [0x6e, 0x75, 0x6c, 0x6c] by decide]; simp, .name (.inl rfl) hw space_nil⟩
      · rename_i e
        simp only [Option.some.injEq, Prod.mk.injEq] at h
        obtain ⟨_, rfl⟩ := h
        rw [e]
        exact ⟨_, by rw [show str "true" = [0x74, 0x72, 0x75, 0x65] by decide]; simp, .name (.inr (.inl rfl)) hw space_nil⟩
      · rename_i e
        simp only [Option.some.injEq, Prod.mk.injEq] at h
        obtain ⟨_, rfl⟩ := h
        rw [e]
        exact ⟨_, by rw [show str "false" = [0x66, 0x61, 0x6c, 0x73, 0x65] by decide]; simp, .name (.inr (.inr rfl)) hw space_nil⟩
      · cases h

/-- **C127** What `Deserialize` of the JSON serializer does not refuse is a JSON text. -/
theorem C127_json (b : Str) (h : ¬ JsonText .value b) : Json.codec.deserialize b = .err := by
  have hd : Json.decode b = none := by
    have key : ∀ v rest, Json.dec 10000 b = some (v, rest) → Json.skip rest ≠ [] := by
      intro v rest h1 h2
      obtain ⟨a, rfl, ha⟩ := json_begins _ _ _ _ h1
      obtain ⟨w, hw, e⟩ := skip_inv rest
      rw [h2, List.append_nil] at e
      subst e
      exact h (json_trail ha hw)
    rw [Json.decode]
    split
    · rename_i h1; rw [if_neg (key _ _ h1)]
    · rename_i h1; rw [if_neg (key _ _ h1)]
    · rfl
  simp only [Codec.deserialize, Json.codec, hd, Res.ofOption]
  rfl

/-! ## Truncated messages -/

/-- How many items are inside the first one, and the bytes they begin with. -/
def cborStep (s : Str) : Option (Nat × Str) :=
  match Wamp.Cbor.readHead s with
  | some (2, _, n, s) => (Wamp.Cbor.split n s).map fun p => (0, p.2)
  | some (3, _, n, s) => (Wamp.Cbor.split n s).map fun p => (0, p.2)
  | some (4, _, n, s) => some (n, s)
  | some (5, _, n, s) => some (2 * n, s)
  | some (6, _, _, s) => some (1, s)
  | some (_, _, _, s) => some (0, s)
  | none =>
    if s.head? = some 0x5f then (Wamp.Cbor.chunks 2 s.tail).map fun p => (0, p.2)
    else if s.head? = some 0x7f then (Wamp.Cbor.chunks 3 s.tail).map fun p => (0, p.2)
    else none

theorem cborStep_of {j : Nat} {h : Str} (hs : CborStart j h) (r : Str) : cborStep (h ++ r) = some (j, r) := by
  cases hs with
  | @number major n h hmaj hh =>
    obtain ⟨info, hi⟩ := readHead_of major (by omega) hh r
    rw [cborStep, hi]
    rcases hmaj with rfl | rfl <;> rfl
  | @bytes h s hh =>
    obtain ⟨info, hi⟩ := readHead_of 2 (by omega) hh (s ++ r)
    rw [List.append_assoc, cborStep, hi]
    simp only [Wamp.Cbor.split_append, Option.map_some]
  | @text h s hh _ =>
    obtain ⟨info, hi⟩ := readHead_of 3 (by omega) hh (s ++ r)
    rw [List.append_assoc, cborStep, hi]
    simp only [Wamp.Cbor.split_append, Option.map_some]
  | list hh => obtain ⟨info, hi⟩ := readHead_of 4 (by omega) hh r; rw [cborStep, hi]; rfl
  | dict hh => obtain ⟨info, hi⟩ := readHead_of 5 (by omega) hh r; rw [cborStep, hi]; rfl
  | tag hh => obtain ⟨info, hi⟩ := readHead_of 6 (by omega) hh r; rw [cborStep, hi]; rfl
  | simple hh _ => obtain ⟨info, hi⟩ := readHead_of 7 (by omega) hh r; rw [cborStep, hi]; rfl
  | @byteChunks cs hcs =>
    rw [cborStep, show Wamp.Cbor.readHead (0x5f :: _ ++ _) = none from rfl, List.cons_append, List.append_assoc]
    simp only [List.head?_cons, List.tail_cons, if_true]
    rw [show [0xff] ++ r = 0xff :: r from rfl, chunks_of 2 (.inl rfl) cs fun c hc => ⟨hcs c hc, by omega⟩]
    rfl
  | @textChunks cs hcs =>
    rw [cborStep, show Wamp.Cbor.readHead (0x7f :: _ ++ _) = none from rfl, List.cons_append, List.append_assoc]
    simp only [List.head?_cons, List.tail_cons]
    rw [if_neg (by decide), if_pos trivial, show [0xff] ++ r = 0xff :: r from rfl, chunks_of 3 (.inr rfl) cs fun c hc => ⟨(hcs c hc).1, fun _ => (hcs c hc).2⟩]
    rfl

/-- What an item begins with: never the "break" code. -/
theorem items_first {k : Nat} {c : UInt8} {b : Str} (h : CborItems k (c :: b)) : c ≠ 0xff := by
  rintro rfl
  generalize e : (0xff :: b : Str) = b' at h
  cases h with
  | done => cases e
  | @item j k h b1 hs _ =>
    have := cborStep_of hs b1
    rw [← e] at this
    cases this
  | openList _ _ => injection e with e _; cases e
  | openDict _ _ => injection e with e _; cases e

theorem start_pos {j : Nat} {h : Str} (hs : CborStart j h) : 1 ≤ h.length := by
  cases hs <;> first | exact head_length ‹_› | (rw [List.length_append]; have := head_length ‹Head _ _ _›; omega) | simp

/-- Of two sequences of items in the same bytes, one continues the other. -/
theorem cbor_continue (size : Nat) : ∀ (k j : Nat) (b b' x y : Str), b.length + b'.length ≤ size → CborItems k b → CborItems (k + j) b' → b ++ x = b' ++ y →
    ∃ z, b' = b ++ z ∧ CborItems j z := by
  induction size using Nat.strongRecOn with
  | _ size ih =>
    intro k j b b' x y hsize h h' e
    have inside : ∀ (n n' : Nat) (a a' s t : Str), a.length + a'.length < size → CborItems n a → CborItems n' a' → a ++ 0xff :: s = a' ++ 0xff :: t → a = a' ∧ s = t := by
      have half : ∀ (n n' : Nat) (a a' s t : Str), a.length + a'.length < size → n ≤ n' → CborItems n a → CborItems n' a' → a ++ 0xff :: s = a' ++ 0xff :: t →
          a = a' ∧ s = t := by
        intro n n' a a' s t hl hn ha ha' e
        obtain ⟨i, rfl⟩ : ∃ i, n' = n + i := ⟨n' - n, by omega⟩
        obtain ⟨z, rfl, hz⟩ := ih _ hl n i a a' _ _ (Nat.le_refl _) ha ha' e
        rw [List.append_assoc] at e
        have e := List.append_cancel_left e
        cases z with
        | nil => injection e with _ e; exact ⟨by simp, e⟩
        | cons c z =>
          injection e with e _
          exact absurd e.symm (items_first hz)
      intro n n' a a' s t hl ha ha' e
      by_cases hn : n ≤ n'
      · exact half n n' a a' s t hl hn ha ha' e
      · obtain ⟨h1, h2⟩ := half n' n a' a t s (by omega) (by omega) ha' ha e.symm
        exact ⟨h1.symm, h2.symm⟩
    cases h with
    | done => exact ⟨b', rfl, by rwa [Nat.zero_add] at h'⟩
    | @item i k hd b hs hb =>
      generalize hk : k + 1 + j = k' at h'
      have hp := start_pos hs
      have e0 := e
      rw [List.append_assoc] at e
      have h1 := cborStep_of hs (b ++ x)
      rw [e] at h1
      cases h' with
      | done => omega
      | @item i' k' hd' b' hs' hb' =>
        rw [List.append_assoc] at h1 e
        rw [cborStep_of hs'] at h1
        simp only [Option.some.injEq, Prod.mk.injEq] at h1
        obtain ⟨rfl, h1⟩ := h1
        rw [h1] at e
        obtain rfl := List.append_cancel_right e
        simp only [List.length_append] at hsize
        obtain ⟨z, rfl, hz⟩ := ih (b.length + b'.length) (by omega) (i' + k) j b b' x y (Nat.le_refl _) hb (by rwa [show i' + k + j = i' + k' by omega]) h1.symm
        exact ⟨z, by rw [List.append_assoc], hz⟩
      | openList _ _ => cases h1
      | openDict _ _ => cases h1
    | @openList n k a b ha hb =>
      generalize hk : k + 1 + j = k' at h'
      cases h' with
      | done => omega
      | @item i' k' hd' b' hs' hb' =>
        have h1 := cborStep_of hs' (b' ++ y)
        rw [← List.append_assoc, ← e] at h1
        cases h1
      | @openList n' k' a' b' ha' hb' =>
        simp only [List.cons_append, List.append_assoc, List.cons.injEq, true_and] at e
        simp only [List.length_append, List.length_cons] at hsize
        obtain ⟨rfl, e2⟩ := inside n n' a a' (b ++ x) (b' ++ y) (by omega) ha ha' e
        obtain ⟨z, rfl, hz⟩ := ih (b.length + b'.length) (by omega) k j b b' x y (Nat.le_refl _) hb (by rwa [show k + j = k' by omega]) e2
        exact ⟨z, by simp, hz⟩
      | openDict _ _ => injection e with e _; cases e
    | @openDict n k a b ha hb =>
      generalize hk : k + 1 + j = k' at h'
      cases h' with
      | done => omega
      | @item i' k' hd' b' hs' hb' =>
        have h1 := cborStep_of hs' (b' ++ y)
        rw [← List.append_assoc, ← e] at h1
        cases h1
      | openList _ _ => injection e with e _; cases e
      | @openDict n' k' a' b' ha' hb' =>
        simp only [List.cons_append, List.append_assoc, List.cons.injEq, true_and] at e
        simp only [List.length_append, List.length_cons] at hsize
        obtain ⟨rfl, e2⟩ := inside (2 * n) (2 * n') a a' (b ++ x) (b' ++ y) (by omega) ha ha' e
        obtain ⟨z, rfl, hz⟩ := ih (b.length + b'.length) (by omega) k j b b' x y (Nat.le_refl _) hb (by rwa [show k + j = k' by omega]) e2
        exact ⟨z, by simp, hz⟩

/-- No CBOR item is the beginning of another one. -/
theorem cbor_prefix {k : Nat} {b : Str} (h : CborItems k b) (c : Str) (hc : CborItems k (b ++ c)) : c = [] := by
  obtain ⟨z, e, hz⟩ := cbor_continue _ k 0 b (b ++ c) c [] (Nat.le_refl _) h hc (by simp)
  obtain rfl := List.append_cancel_left e
  generalize hk : 0 = k at hz
  cases hz with
  | done => rfl
  | item _ _ => cases hk
  | openList _ _ => cases hk
  | openDict _ _ => cases hk

/-- **C127** A CBOR message of which the end is missing is refused. -/
theorem C127_cbor_truncated (order : List (Str × Str) → List (Str × Str)) (b c : Str) (h : CborItems 1 (b ++ c)) (hc : c ≠ []) :
    (Wamp.Cbor.codec order).deserialize b = .err :=
  C127_cbor order b fun hb => hc (cbor_prefix hb c h)

/-- The head of an object: how many objects follow it, and the bytes behind it. -/
def step : Str → Option (Nat × Str)
  | [] => none
  | c :: s =>
    match MsgPack.item c.toNat with
    | .val _ => some (0, s)
    | .num k _ => (MsgPack.readNum k s).map fun p => (0, p.2)
    | .bin k => (MsgPack.readNum k s).bind fun p => (Wamp.Cbor.split p.1 p.2).map fun q => (0, q.2)
    | .str k len => (MsgPack.readLen k len s).bind fun p => (Wamp.Cbor.split p.1 p.2).map fun q => (0, q.2)
    | .arr k len => MsgPack.readLen k len s
    | .map k len => (MsgPack.readLen k len s).map fun p => (2 * p.1, p.2)
    | .bad => none

/-- The codes of objects of one byte. -/
def codeCase (c : UInt8) : Bool :=
  !(c.toNat < 0x80 || 0xe0 ≤ c.toNat || c = 0xc0 || c = 0xc2 || c = 0xc3) || match MsgPack.item c.toNat with | .val _ => true | _ => false

theorem codeCase_all : ∀ n : Fin 256, codeCase (UInt8.ofNat n.val) = true := by decide +kernel

theorem code_val {c : UInt8} (h : c.toNat < 0x80 ∨ 0xe0 ≤ c.toNat ∨ c = 0xc0 ∨ c = 0xc2 ∨ c = 0xc3) : ∃ v, MsgPack.item c.toNat = .val v := by
  have h1 := codeCase_all ⟨c.toNat, c.toNat_lt⟩
  rw [UInt8.ofNat_toNat, codeCase] at h1
  have h2 : (decide (c.toNat < 0x80) || decide (0xe0 ≤ c.toNat) || decide (c = 0xc0) || decide (c = 0xc2) || decide (c = 0xc3)) = true := by
    simpa [or_assoc] using h
  rw [h2] at h1
  cases h3 : MsgPack.item c.toNat with
  | val v => exact ⟨v, rfl⟩
  | _ => rw [h3] at h1; cases h1

theorem split_append (s r : Str) : Wamp.Cbor.split s.length (s ++ r) = some (s, r) := by
  rw [Wamp.Cbor.split, if_neg (by rw [List.length_append]; omega), List.take_left, List.drop_left]

theorem step_code {c : UInt8} (h : c.toNat < 0x80 ∨ 0xe0 ≤ c.toNat ∨ c = 0xc0 ∨ c = 0xc2 ∨ c = 0xc3) (s : Str) : step (c :: s) = some (0, s) := by
  obtain ⟨v, h⟩ := code_val h
  rw [step, h]

theorem step_number {c : UInt8} {s : Str} (h : (c, s.length) ∈ [((0xca : UInt8), 4), (0xcb, 8), (0xcc, 1), (0xcd, 2), (0xce, 4), (0xcf, 8), (0xd0, 1), (0xd1, 2),
      (0xd2, 4), (0xd3, 8)]) (r : Str) : step (c :: (s ++ r)) = some (0, r) := by
  have key : ∀ f, MsgPack.item c.toNat = .num s.length f → step (c :: (s ++ r)) = some (0, r) := by
    intro f hf
    rw [step, hf]
    simp only [readNum_of, Option.map_some]
  simp only [List.mem_cons, Prod.mk.injEq, List.not_mem_nil, or_false] at h
  rcases h with ⟨rfl, h⟩ | ⟨rfl, h⟩ | ⟨rfl, h⟩ | ⟨rfl, h⟩ | ⟨rfl, h⟩ | ⟨rfl, h⟩ | ⟨rfl, h⟩ | ⟨rfl, h⟩ | ⟨rfl, h⟩ | ⟨rfl, h⟩ <;>
    exact key _ (by rw [h]; rfl)

theorem step_text {h s : Str} (hh : StrLen s.length h) (r : Str) : step (h ++ s ++ r) = some (0, r) := by
  obtain ⟨c, t, k, len, rfl, h1, h2⟩ := strLen_read hh
  rw [List.append_assoc, List.cons_append, step, h1]
  simp only [h2, Option.bind_some, split_append, Option.map_some]

theorem step_bytes {h s : Str} (hh : BinLen s.length h) (r : Str) : step (h ++ s ++ r) = some (0, r) := by
  obtain ⟨c, t, k, rfl, h1, h2⟩ := binLen_read hh
  rw [List.append_assoc, List.cons_append, step, h1]
  simp only [h2, Option.bind_some, split_append, Option.map_some]

theorem step_list {h : Str} {n : Nat} (hh : ListLen n h) (r : Str) : step (h ++ r) = some (n, r) := by
  obtain ⟨c, t, k, len, rfl, h1, h2⟩ := listLen_read hh
  rw [List.cons_append, step, h1]
  simp only [h2]

theorem step_dict {h : Str} {n : Nat} (hh : DictLen n h) (r : Str) : step (h ++ r) = some (2 * n, r) := by
  obtain ⟨c, t, k, len, rfl, h1, h2⟩ := dictLen_read hh
  rw [List.cons_append, step, h1]
  simp only [h2, Option.map_some]

theorem step_of {k : Nat} {b : Str} (h : MsgPackItems (k + 1) b) : ∃ j b', step b = some (j, b') ∧ MsgPackItems (j + k) b' := by
  cases h with
  | code hc h => exact ⟨0, _, step_code hc _, by rw [Nat.zero_add]; exact h⟩
  | number hc h => exact ⟨0, _, step_number hc _, by rw [Nat.zero_add]; exact h⟩
  | text hc h => exact ⟨0, _, step_text hc _, by rw [Nat.zero_add]; exact h⟩
  | bytes hc h => exact ⟨0, _, step_bytes hc _, by rw [Nat.zero_add]; exact h⟩
  | list hc h => exact ⟨_, _, step_list hc _, h⟩
  | dict hc h => exact ⟨_, _, step_dict hc _, h⟩

/-- No MsgPack object is the beginning of another one. -/
theorem msgpack_prefix {k : Nat} {b : Str} (h : MsgPackItems k b) (c : Str) (hc : MsgPackItems k (b ++ c)) : c = [] := by
  have key : ∀ {k j : Nat} {b b' : Str}, step (b ++ c) = some (j, b' ++ c) → (MsgPackItems (j + k) (b' ++ c) → c = []) → MsgPackItems (k + 1) (b ++ c) → c = [] := by
    intro k j b b' h1 h2 h3
    obtain ⟨j', b'', h4, h5⟩ := step_of h3
    rw [h1, Option.some.injEq, Prod.mk.injEq] at h4
    obtain ⟨rfl, rfl⟩ := h4
    exact h2 h5
  induction h with
  | done => generalize hk : 0 = k at hc; generalize hb : [] ++ c = b at hc; cases hc <;> first | exact hb | cases hk
  | code hh _ ih => exact key (j := 0) (step_code hh _) (by rw [Nat.zero_add]; exact ih) hc
  | @number k a s b hh _ ih =>
    refine key (j := 0) (b' := b) ?_ (by rw [Nat.zero_add]; exact ih) hc
    rw [List.cons_append, List.append_assoc]
    exact step_number hh _
  | @text k h s b hh _ ih =>
    refine key (j := 0) (b' := b) ?_ (by rw [Nat.zero_add]; exact ih) hc
    rw [List.append_assoc]
    exact step_text hh _
  | @bytes k h s b hh _ ih =>
    refine key (j := 0) (b' := b) ?_ (by rw [Nat.zero_add]; exact ih) hc
    rw [List.append_assoc]
    exact step_bytes hh _
  | @list k n h b hh _ ih =>
    refine key (b' := b) ?_ ih hc
    rw [List.append_assoc]
    exact step_list hh _
  | @dict k n h b hh _ ih =>
    refine key (b' := b) ?_ ih hc
    rw [List.append_assoc]
    exact step_dict hh _

/-- **C127** A MsgPack message of which the end is missing is refused. -/
theorem C127_msgpack_truncated (order : List (Str × Str) → List (Str × Str)) (b c : Str) (h : MsgPackItems 1 (b ++ c)) (hc : c ≠ []) :
    (MsgPack.codec order).deserialize b = .err :=
  C127_msgpack order b fun a rest e ha => by
    subst e
    rw [List.append_assoc] at h
    exact hc (List.append_eq_nil_iff.1 (msgpack_prefix ha _ h)).2

/-- How deep in brackets one is after a text that begins outside a string literal, `none` if a bracket closes more than was opened;
`inside`: within a string literal. -/
def depth (inside : Bool) (d : Nat) : Str → Option Nat
  | [] => some d
  | c :: s =>
    if inside then
      if c = 0x5c then
        match s with
        | [] => none
        | _ :: s => depth true d s
      else depth (decide (c ≠ 0x22)) d s
    else if c = 0x22 then depth true d s
    else if c = 0x5b ∨ c = 0x7b then depth false (d + 1) s
    else if c = 0x5d ∨ c = 0x7d then (if d = 0 then none else depth false (d - 1) s)
    else depth false d s

theorem depth_inert {s : Str} (h : ∀ c ∈ s, c ≠ 0x22 ∧ (c ≠ 0x5b ∧ c ≠ 0x7b) ∧ c ≠ 0x5d ∧ c ≠ 0x7d) (d : Nat) (r : Str) : depth false d (s ++ r) = depth false d r := by
  induction s with
  | nil => rfl
  | cons c s ih =>
    obtain ⟨h1, ⟨h2, h3⟩, h4, h5⟩ := h c (List.mem_cons_self ..)
    rw [List.cons_append, depth.eq_def]
    simp only [h1, h2, h3, h4, h5, or_self, if_false, Bool.false_eq_true]
    exact ih fun x hx => h x (List.mem_cons_of_mem _ hx)

theorem depth_space {w : Str} (h : Space w) (d : Nat) (r : Str) : depth false d (w ++ r) = depth false d r :=
  depth_inert (fun c hc => by rcases h c hc with rfl | rfl | rfl | rfl <;> decide) d r

theorem hex_inert {n : Nat} {h : UInt8} (hh : Hex n h) : h ≠ 0x5c ∧ h ≠ 0x22 := by
  constructor <;> rintro rfl <;> (have := hex_val hh; revert this; simp [hexVal])

theorem depth_in {c : UInt8} (h1 : c ≠ 0x5c) (h2 : c ≠ 0x22) (d : Nat) (s : Str) : depth true d (c :: s) = depth true d s := by
  rw [depth.eq_def]
  simp only [h1, h2, if_true, if_false, ne_eq, not_false_eq_true, decide_true]

theorem depth_chars {s : Str} (h : JsonChars s) (d : Nat) (r : Str) : depth true d (s ++ 0x22 :: r) = depth false d r := by
  induction h with
  | done => rw [List.nil_append, depth.eq_def]; rfl
  | plain h1 h2 h3 _ ih => rw [List.cons_append, depth_in h3 h2, ih]
  | short hp _ ih =>
    simp only [List.cons_append]
    rw [depth.eq_def]
    simp only [if_true]
    exact ih
  | hex hh _ ih =>
    obtain ⟨a, b, c, e, h1, h2, h3, h4, rfl, -, g1, g2, g3, g4⟩ := hh
    obtain ⟨a1, a2⟩ := hex_inert g1
    obtain ⟨b1, b2⟩ := hex_inert g2
    obtain ⟨c1, c2⟩ := hex_inert g3
    obtain ⟨d1, d2⟩ := hex_inert g4
    simp only [List.cons_append, List.nil_append]
    rw [depth.eq_def]
    simp only [if_true]
    rw [depth_in a1 a2, depth_in b1 b2, depth_in c1 c2, depth_in d1 d2, ih]

theorem number_inert {s : Str} (h : Number s) : ∀ c ∈ s, c ≠ 0x22 ∧ (c ≠ 0x5b ∧ c ≠ 0x7b) ∧ c ≠ 0x5d ∧ c ≠ 0x7d := by
  have digit : ∀ {ds : Str}, Digits ds → ∀ c ∈ ds, c ≠ 0x22 ∧ (c ≠ 0x5b ∧ c ≠ 0x7b) ∧ c ≠ 0x5d ∧ c ≠ 0x7d := by
    intro ds h c hc
    have := h.2 c hc
    refine ⟨?_, ⟨?_, ?_⟩, ?_, ?_⟩ <;> rintro rfl <;> exact absurd this (by decide)
  obtain ⟨neg, int, ds, x, frac, exp, rfl, h2, h3, h4⟩ := h
  intro c hc
  simp only [List.mem_append] at hc
  rcases hc with ((hc | hc) | hc) | hc
  · cases neg
    · cases hc
    · rw [if_pos rfl, show str "-" = [0x2d] by decide, List.mem_singleton] at hc
      subst hc; decide
  · exact digit h2.1 c hc
  · rcases h3 with ⟨rfl, -⟩ | ⟨hd, rfl⟩
    · cases hc
    · rcases List.mem_cons.1 hc with rfl | hc
      · decide
      · exact digit hd c hc
  · rcases h4 with ⟨rfl, -⟩ | ⟨e, sg, ds, he, hd, rfl, hs⟩
    · cases hc
    · simp only [List.cons_append, List.mem_cons, List.mem_append] at hc
      rcases hc with rfl | hc | hc
      · rcases he with rfl | rfl <;> decide
      · rcases hs with ⟨rfl | rfl, -⟩ | ⟨rfl, -⟩
        · cases hc
        · rw [show str "+" = [0x2b] by decide, List.mem_singleton] at hc
          subst hc; decide
        · rw [show str "-" = [0x2d] by decide, List.mem_singleton] at hc
          subst hc; decide
      · exact digit hd c hc

theorem depth_text {rule : Rule} {s : Str} (h : JsonText rule s) (d : Nat) (r : Str) : depth false d (s ++ r) = depth false d r := by
  have open_ : ∀ (c : UInt8) (d : Nat) (r : Str), c = 0x5b ∨ c = 0x7b → depth false d (c :: r) = depth false (d + 1) r := by
    intro c d r hc
    rcases hc with rfl | rfl <;> rw [depth.eq_def] <;> rfl
  have close_ : ∀ (c : UInt8) (d : Nat) (r : Str), c = 0x5d ∨ c = 0x7d → depth false (d + 1) (c :: r) = depth false d r := by
    intro c d r hc
    rcases hc with rfl | rfl <;> rw [depth.eq_def] <;> rfl
  have quote_ : ∀ (k : Str) (d : Nat) (r : Str), JsonChars k → depth false d (0x22 :: (k ++ 0x22 :: r)) = depth false d r := by
    intro k d r hk
    rw [← depth_chars hk d r, depth.eq_def]
    rfl
  have colon : ∀ (d : Nat) (r : Str), depth false d (0x3a :: r) = depth false d r := fun d r => by rw [depth.eq_def]; rfl
  have comma : ∀ (d : Nat) (r : Str), depth false d (0x2c :: r) = depth false d r := fun d r => by rw [depth.eq_def]; rfl
  induction h generalizing d r with
  | name hs h1 h2 =>
    simp only [List.append_assoc]
    rw [depth_space h1, depth_inert, depth_space h2]
    rcases hs with rfl | rfl | rfl <;> decide
  | number hs h1 h2 =>
    simp only [List.append_assoc]
    rw [depth_space h1, depth_inert (number_inert hs), depth_space h2]
  | text hs h1 h2 =>
    simp only [List.append_assoc, List.cons_append, List.nil_append]
    rw [depth_space h1, quote_ _ _ _ hs, depth_space h2]
  | empty h h1 h2 =>
    simp only [List.append_assoc, List.cons_append, List.nil_append]
    rw [depth_space h1, open_ _ _ _ (.inl rfl), depth_space h, close_ _ _ _ (.inl rfl), depth_space h2]
  | list _ h1 h2 ih =>
    simp only [List.append_assoc, List.cons_append, List.nil_append]
    rw [depth_space h1, open_ _ _ _ (.inl rfl), ih, close_ _ _ _ (.inl rfl), depth_space h2]
  | nothing h h1 h2 =>
    simp only [List.append_assoc, List.cons_append, List.nil_append]
    rw [depth_space h1, open_ _ _ _ (.inr rfl), depth_space h, close_ _ _ _ (.inr rfl), depth_space h2]
  | object _ h1 h2 ih =>
    simp only [List.append_assoc, List.cons_append, List.nil_append]
    rw [depth_space h1, open_ _ _ _ (.inr rfl), ih, close_ _ _ _ (.inr rfl), depth_space h2]
  | one _ ih => exact ih d r
  | more _ _ ih1 ih2 =>
    simp only [List.append_assoc, List.cons_append]
    rw [ih1, comma, ih2]
  | last hk h1 h2 _ ih =>
    simp only [List.append_assoc, List.cons_append, List.nil_append]
    rw [depth_space h1, quote_ _ _ _ hk, depth_space h2, colon, ih]
  | member hk h1 h2 _ _ ih1 ih2 =>
    simp only [List.append_assoc, List.cons_append, List.nil_append]
    rw [depth_space h1, quote_ _ _ _ hk, depth_space h2, colon, ih1, comma, ih2]

/-- A list is not the beginning of another one, apart from white space behind it. -/
theorem list_prefix {a x y t u : Str} (hx : depth false 0 x = some 0) (hy : depth false 0 y = some 0)
    (ex : ∀ r, depth false 0 (x ++ r) = depth false 0 r) (ey : ∀ r, depth false 0 (y ++ r) = depth false 0 r)
    (e : a ++ (0x5b :: (x ++ 0x5d :: t)) = a ++ (0x5b :: (y ++ 0x5d :: u))) : x = y ∧ t = u := by
  have e1 := List.append_cancel_left e
  simp only [List.cons.injEq, true_and] at e1
  have stop : ∀ r, depth false 0 (0x5d :: r) = none := fun r => by rw [depth.eq_def]; rfl
  rcases List.append_eq_append_iff.1 e1 with ⟨z, h1, h2⟩ | ⟨z, h1, h2⟩
  · cases z with
    | nil => simp only [List.append_nil, List.nil_append, List.cons.injEq, true_and] at h1 h2; exact ⟨h1.symm, h2⟩
    | cons c z =>
      simp only [List.cons_append, List.cons.injEq] at h2
      obtain ⟨rfl, -⟩ := h2
      rw [h1, ex, stop] at hy
      cases hy
  · cases z with
    | nil => simp only [List.append_nil, List.nil_append, List.cons.injEq, true_and] at h1 h2; exact ⟨h1, h2.symm⟩
    | cons c z =>
      simp only [List.cons_append, List.cons.injEq] at h2
      obtain ⟨rfl, -⟩ := h2
      rw [h1, ey, stop] at hx
      cases hx

theorem space_first {w w' : Str} {c c' : UInt8} {s s' : Str} (hw : Space w) (hw' : Space w') (hc : Json.isSpace c = false) (hc' : Json.isSpace c' = false)
    (e : w ++ c :: s = w' ++ c' :: s') : w = w' ∧ c = c' ∧ s = s' := by
  have h := congrArg Json.skip e
  rw [skip_space hw, skip_space hw', skip_cons hc, skip_cons hc'] at h
  injection h with h1 h2
  subst h1 h2
  exact ⟨List.append_cancel_right e, rfl, rfl⟩

/-- A JSON text that is a list: one whose first character other than white space is an opening bracket. -/
def JsonList (s : Str) : Prop := JsonText .value s ∧ ∃ w r, Space w ∧ s = w ++ 0x5b :: r

theorem number_first {s : Str} (h : Number s) : ∃ c r, s = c :: r ∧ Json.isSpace c = false := by
  have h3 := (isNumber_iff _).2 h
  cases s with
  | nil => exact absurd h3 (by decide)
  | cons c n =>
    refine ⟨c, n, rfl, ?_⟩
    cases hc : Json.isSpace c with
    | false => rfl
    | true =>
      simp only [Json.isSpace, Bool.or_eq_true, decide_eq_true_eq] at hc
      rcases hc with (rfl | rfl) | (rfl | rfl) <;>
        (rw [Json.isNumber.eq_def] at h3; simp [Json.unsigned, Json.natural, Json.digits, Json.isDigit, Wamp.Cbor.within] at h3)

/-- White space, then another character; if that is an opening bracket, then the bracket that closes it, then white space. -/
theorem value_first {s : Str} (h : JsonText .value s) : ∃ w c r, Space w ∧ Json.isSpace c = false ∧ s = w ++ c :: r ∧
    (c = 0x5b → ∃ x w2, Space w2 ∧ r = x ++ 0x5d :: w2 ∧ depth false 0 x = some 0 ∧ ∀ t, depth false 0 (x ++ t) = depth false 0 t) := by
  have fin : ∀ x : Str, (∀ t, depth false 0 (x ++ t) = depth false 0 t) → depth false 0 x = some 0 := by
    intro x h
    have := h []
    rw [List.append_nil] at this
    rw [this, depth.eq_def]
  generalize hr : Rule.value = rule at h
  cases h with
  | @name n w1 w2 hn h1 h2 =>
    rcases hn with rfl | rfl | rfl
    · exact ⟨w1, 0x6e, str "ull" ++ w2, h1, by decide, by rw [List.append_assoc]; rfl, fun e => absurd e (by decide)⟩
    · exact ⟨w1, 0x74, str "rue" ++ w2, h1, by decide, by rw [List.append_assoc]; rfl, fun e => absurd e (by decide)⟩
    · exact ⟨w1, 0x66, str "alse" ++ w2, h1, by decide, by rw [List.append_assoc]; rfl, fun e => absurd e (by decide)⟩
  | @number n w1 w2 hn h1 h2 =>
    obtain ⟨c, r, rfl, hc⟩ := number_first hn
    exact ⟨w1, c, r ++ w2, h1, hc, by rw [List.append_assoc]; rfl, fun e => absurd e (number_inert hn c (List.mem_cons_self ..)).2.1.1⟩
  | @text n w1 w2 hn h1 h2 => exact ⟨w1, 0x22, n ++ [0x22] ++ w2, h1, by decide, by rw [List.append_assoc]; rfl, fun e => absurd e (by decide)⟩
  | @empty x w1 w2 hx h1 h2 =>
    exact ⟨w1, 0x5b, x ++ [0x5d] ++ w2, h1, by decide, by rw [List.append_assoc]; rfl, fun _ => ⟨x, w2, h2, by simp, fin x (depth_space hx 0), depth_space hx 0⟩⟩
  | @list x w1 w2 hx h1 h2 =>
    exact ⟨w1, 0x5b, x ++ [0x5d] ++ w2, h1, by decide, by rw [List.append_assoc]; rfl, fun _ => ⟨x, w2, h2, by simp, fin x (depth_text hx 0), depth_text hx 0⟩⟩
  | @nothing x w1 w2 hx h1 h2 => exact ⟨w1, 0x7b, x ++ [0x7d] ++ w2, h1, by decide, by rw [List.append_assoc]; rfl, fun e => absurd e (by decide)⟩
  | @object x w1 w2 hx h1 h2 => exact ⟨w1, 0x7b, x ++ [0x7d] ++ w2, h1, by decide, by rw [List.append_assoc]; rfl, fun e => absurd e (by decide)⟩
  | one _ | more _ _ | last _ _ _ _ | member _ _ _ _ _ => cases hr

/-- **C127** A JSON message of which the end is missing (more than white space) is refused. -/
theorem C127_json_truncated (b c : Str) (h : JsonList (b ++ c)) (hc : ¬ Space c) : Json.codec.deserialize b = .err := by
  refine C127_json b fun hb => hc ?_
  obtain ⟨h1, w, r, hw, e⟩ := h
  obtain ⟨w1, c1, r1, hw1, hc1, e1, g1⟩ := value_first h1
  obtain ⟨w2, c2, r2, hw2, hc2, rfl, g2⟩ := value_first hb
  obtain ⟨rfl, rfl, rfl⟩ := space_first hw1 hw hc1 (by decide) (e1.symm.trans e)
  rw [List.append_assoc, List.cons_append] at e1
  obtain ⟨rfl, rfl, e2⟩ := space_first hw2 hw hc2 (by decide) e1
  obtain ⟨x, u, hu, rfl, hx, ex⟩ := g1 rfl
  obtain ⟨y, v, hv, rfl, hy, ey⟩ := g2 rfl
  rw [List.append_assoc, List.cons_append] at e2
  obtain ⟨rfl, e3⟩ := list_prefix (a := []) hy hx ey ex (congrArg (0x5b :: ·) e2)
  intro z hz
  exact hu z (by rw [← e3]; exact List.mem_append_right _ hz)

/-! ## Examples -/

/-- `[32, 7, {}, "a"]` in CBOR. -/
def cborSubscribe : Str := [0x84, 0x18, 0x20, 0x07, 0xa0, 0x61, 0x61]
/-- The same in MsgPack. -/
def msgpackSubscribe : Str := [0x94, 0x20, 0x07, 0x80, 0xa1, 0x61]
/-- The same in JSON. -/
def jsonSubscribe : Str := str "[32,7,{},\"a\"]"

theorem cborSubscribe_formed : CborItems 1 cborSubscribe := by
  have h0 : Head 4 4 [0x84] := Head.small 4 (by decide)
  have h1 : Head 0 32 [0x18, 0x20] := Head.large 0 [0x20] (by decide) rfl
  have h2 : Head 0 7 [0x07] := Head.small 7 (by decide)
  have h3 : Head 5 0 [0xa0] := Head.small 0 (by decide)
  have h4 : Head 3 1 [0x61] := Head.small 1 (by decide)
  exact .item (k := 0) (.list h0) (.item (k := 3) (.number (.inl rfl) h1) (.item (k := 2) (.number (.inl rfl) h2) (.item (k := 1) (.dict h3)
    (.item (k := 0) (.text (s := [0x61]) h4 ((valid_iff _).1 (by decide))) .done))))

/-- The same in CBOR, with a list, a map and a text of indefinite length. -/
def cborOpen : Str := [0x9f, 0x18, 0x20, 0x07, 0xbf, 0xff, 0x7f, 0x61, 0x61, 0xff, 0xff]

theorem cborOpen_formed : CborItems 1 cborOpen := by
  have h1 : Head 0 32 [0x18, 0x20] := Head.large 0 [0x20] (by decide) rfl
  have h2 : Head 0 7 [0x07] := Head.small 7 (by decide)
  have h4 : Head 3 1 [0x61] := Head.small 1 (by decide)
  have t : CborStart 0 [0x7f, 0x61, 0x61, 0xff] := .textChunks (cs := [([0x61], [0x61])]) fun c hc => by
    obtain rfl := List.mem_singleton.1 hc
    exact ⟨h4, (valid_iff _).1 (by decide)⟩
  exact .openList (b := []) (.item (k := 3) (.number (.inl rfl) h1) (.item (k := 2) (.number (.inl rfl) h2) (.openDict (n := 0) (k := 1) .done (.item (k := 0) t .done)))) .done

theorem msgpackSubscribe_formed : MsgPackItems 1 msgpackSubscribe :=
  .list (k := 0) (n := 4) (Len.fix 4 (by decide)) (.code (c := 0x20) (.inl (by decide)) (.code (c := 0x07) (.inl (by decide))
    (.dict (n := 0) (Len.fix 0 (by decide)) (.text (s := [0x61]) (Len.fix 1 (by decide)) .done))))

theorem jsonSubscribe_formed : JsonList jsonSubscribe := by
  have num : ∀ s : Str, Json.isNumber s = true → JsonText .value ([] ++ s ++ []) := fun s h => .number ((isNumber_iff s).1 h) space_nil space_nil
  have t : JsonText .elements ([] ++ str "32" ++ [] ++ 0x2c :: ([] ++ str "7" ++ [] ++ 0x2c :: ([] ++ (0x7b :: ([] ++ [0x7d])) ++ [] ++ 0x2c :: ([] ++ (0x22 :: ([0x61] ++ [0x22])) ++ [])))) :=
    .more (num _ (by decide)) (.more (num _ (by decide)) (.more (.nothing space_nil space_nil space_nil)
      (.one (.text (.plain (by decide) (by decide) (by decide) .done) space_nil space_nil))))
  exact ⟨.list (w1 := []) (w2 := []) t space_nil space_nil, [], _, space_nil, rfl⟩

/-- All three are read, and refused when their last byte is missing. -/
example (order : List (Str × Str) → List (Str × Str)) : (Wamp.Cbor.codec order).deserialize cborSubscribe.dropLast = .err ∧
    (MsgPack.codec order).deserialize msgpackSubscribe.dropLast = .err ∧ Json.codec.deserialize jsonSubscribe.dropLast = .err :=
  ⟨C127_cbor_truncated order _ [0x61] cborSubscribe_formed (by decide), C127_msgpack_truncated order _ [0x61] msgpackSubscribe_formed (by decide),
    C127_json_truncated _ [0x5d] jsonSubscribe_formed (fun h => absurd (h _ (List.mem_singleton.2 rfl)) (by decide))⟩

/-- So is the one with items of indefinite length. -/
example (order : List (Str × Str) → List (Str × Str)) : (Wamp.Cbor.codec order).deserialize cborOpen.dropLast = .err :=
  C127_cbor_truncated order _ [0xff] cborOpen_formed (by decide)

/-- Whether a message was read. -/
def wasRead : Res Msg → Bool
  | .ok _ => true
  | _ => false

example : wasRead ((Wamp.Cbor.codec id).deserialize cborSubscribe) ∧ wasRead ((Wamp.Cbor.codec id).deserialize cborOpen) ∧ wasRead ((MsgPack.codec id).deserialize msgpackSubscribe) ∧
    wasRead (Json.codec.deserialize jsonSubscribe) := by decide +kernel

/-- Bytes to which `C127_cbor`, `C127_msgpack` and `C127_json` apply. -/
example : ¬ CborItems 1 cborSubscribe.dropLast ∧ (∀ a rest, msgpackSubscribe.dropLast = a ++ rest → ¬ MsgPackItems 1 a) ∧ ¬ JsonText .value jsonSubscribe.dropLast := by
  refine ⟨fun h => absurd (cbor_prefix h [0x61] cborSubscribe_formed) (by decide), fun a rest e h => ?_, fun h => ?_⟩
  · have e1 : msgpackSubscribe = a ++ (rest ++ [0x61]) := by rw [← List.append_assoc, ← e]; rfl
    have h1 := msgpackSubscribe_formed
    rw [e1] at h1
    exact absurd (msgpack_prefix h _ h1) (by simp)
  · have := depth_text h 0 []
    rw [List.append_nil] at this
    exact absurd this (by decide +kernel)

end Wamp.Formats
