import Verif.Spec.Frames
import Verif.Props.RawSocket
/-!
# C86: a stream of frames
-/
namespace Wamp.RawSocket
open Wamp

theorem header_length (h : MessageHeader) : (sendMessageHeader h).length = 4 := rfl

/-- **C86** Whatever messages are written, each with a payload below 2^24 bytes, and wherever the stream is cut: what is read from the first
`cut` bytes is a beginning of the list of messages, namely all messages whose last byte lies before the cut. -/
theorem C86_stream (l : List (UInt8 × Str)) (hl : ∀ x ∈ l, x.2.length < 2 ^ 24) (cut n : Nat) (hn : l.length ≤ n) :
    ∃ k, readFrames n ((writeFrames l).take cut) = l.take k ∧
      (k < l.length → cut < (writeFrames (l.take (k + 1))).length) ∧ (writeFrames (l.take k)).length ≤ cut ∧ k ≤ l.length := by
  induction l generalizing cut n with
  | nil =>
    refine ⟨0, ?_, by simp, by simp [writeFrames], by simp⟩
    cases n <;> simp [readFrames, writeFrames]
  | cons x l ih =>
    obtain ⟨kind, p⟩ := x
    have hp := hl (kind, p) (List.mem_cons_self ..)
    obtain ⟨n, rfl⟩ : ∃ m, n = m + 1 := ⟨n - 1, by simp at hn; omega⟩
    have hlen : (sendMessageHeader ⟨kind, p.length⟩).length = 4 := rfl
    by_cases hc : cut < 4 + p.length
    · refine ⟨0, ?_, ?_, by simp [writeFrames], by simp⟩
      · rw [readFrames, List.take_zero]
        split
        · rfl
        · rename_i h4
          have h4' : 4 ≤ cut := by simp at h4; omega
          have e4 : ((writeFrames ((kind, p) :: l)).take cut).take 4 = sendMessageHeader ⟨kind, p.length⟩ := by
            rw [List.take_take, Nat.min_eq_left h4', writeFrames, List.append_assoc, List.take_append_of_le_length (by omega),
              List.take_of_length_le (by omega)]
          rw [e4, (C04_header_roundtrip kind p.length hp).1]
          have : ((((writeFrames ((kind, p) :: l)).take cut).drop 4).length : Int) < p.length := by
            simp only [List.length_drop, List.length_take]
            omega
          simp only [this, if_true]
      · intro _
        simp [writeFrames, hlen]
        omega
    · have hc' : 4 + p.length ≤ cut := Nat.le_of_not_lt hc
      obtain ⟨k, h1, h2, h3, h4⟩ := ih (fun x hx => hl x (List.mem_cons_of_mem _ hx)) (cut - (4 + p.length)) n (by simp at hn; omega)
      refine ⟨k + 1, ?_, ?_, ?_, by simp; omega⟩
      · have ew : (writeFrames ((kind, p) :: l)).take cut =
            sendMessageHeader ⟨kind, p.length⟩ ++ (p ++ (writeFrames l).take (cut - (4 + p.length))) := by
          rw [writeFrames, List.take_append, List.take_of_length_le (by simp [hlen]; omega), List.append_assoc]
          simp [hlen]
        rw [ew, readFrames, if_neg (by simp [hlen])]
        rw [List.take_append_of_le_length (by omega), List.take_of_length_le (by omega), List.drop_append_of_le_length (by omega),
          List.drop_of_length_le (by omega), List.nil_append, (C04_header_roundtrip kind p.length hp).1]
        simp only [List.length_append, Int.toNat_natCast]
        rw [if_neg (by omega), List.take_append_of_le_length (by omega), List.take_of_length_le (by omega),
          List.drop_append_of_le_length (by omega), List.drop_of_length_le (by omega), List.nil_append, h1, List.take_succ_cons]
      · intro hk
        have := h2 (by simp at hk; omega)
        rw [List.take_succ_cons, writeFrames]
        simp only [List.length_append, hlen]
        omega
      · rw [List.take_succ_cons, writeFrames]
        simp only [List.length_append, hlen]
        omega

/-- **C86** In particular the whole stream gives back exactly the messages. -/
theorem C86_whole (l : List (UInt8 × Str)) (hl : ∀ x ∈ l, x.2.length < 2 ^ 24) (n : Nat) (hn : l.length ≤ n) :
    readFrames n (writeFrames l) = l := by
  obtain ⟨k, h1, h2, -, h4⟩ := C86_stream l hl (writeFrames l).length n hn
  rw [List.take_of_length_le (Nat.le_refl _)] at h1
  have hk : k = l.length := by
    refine Nat.le_antisymm h4 (Nat.le_of_not_lt fun hlt => ?_)
    have := h2 hlt
    have e : writeFrames l = writeFrames (l.take (k + 1)) ++ writeFrames (l.drop (k + 1)) := by
      have happ : ∀ a b : List (UInt8 × Str), writeFrames (a ++ b) = writeFrames a ++ writeFrames b := by
        intro a b
        induction a with
        | nil => rfl
        | cons x a ih => obtain ⟨c, p⟩ := x; simp [writeFrames, ih]
      rw [← happ, List.take_append_drop]
    rw [e, List.length_append] at this
    omega
  rw [h1, hk, List.take_length]

/-- Two messages and a cut inside the second one. -/
example : readFrames 9 ((writeFrames [(0, [1, 2]), (1, [3, 4, 5])]).take 12) = [(0, [1, 2])] ∧
    readFrames 9 (writeFrames [(0, [1, 2]), (1, []), (2, [3])]) = [(0, [1, 2]), (1, []), (2, [3])] := by decide

/-- At 2^24 bytes this breaks: the payload is read as the next header. -/
theorem C86_limit (p : Str) (hp : p.length = 2 ^ 24) : readFrames 1 (writeFrames [(0, p)]) = [(0, [])] := by
  have e : sendMessageHeader ⟨0, p.length⟩ = [0, 0, 0, 0] := by rw [hp]; decide
  simp only [readFrames, writeFrames, e]
  rfl

end Wamp.RawSocket
