import Verif.Spec.Connect
import Verif.Lemmas.Net
/-!
# Connections: the order of events makes no difference
-/
namespace Wamp.Connect
open Wamp

/-! ### Confluence -/

section
variable {α : Type} (S : α → α → Prop)

/-- `n` steps of a relation. -/
inductive Many : Nat → α → α → Prop
  | nil {x} : Many 0 x x
  | cons {n x y z} : S x y → Many n y z → Many (n + 1) x z

/-- Steps that are possible at the same time commute. -/
def Diamond : Prop := ∀ a b c, S a b → S a c → b = c ∨ ∃ d, S b d ∧ S c d

variable {S}

theorem Many.trans {m n : Nat} {a b c : α} (h1 : Many S m a b) (h2 : Many S n b c) : Many S (m + n) a c := by
  induction h1 with
  | nil => rwa [Nat.zero_add]
  | cons hs _ ih => rw [Nat.add_right_comm]; exact .cons hs (ih h2)

/-- If some steps lead to an end, then whichever step is made first, the end is as near as it could be. -/
theorem Diamond.one (hd : Diamond S) {n : Nat} {a z : α} (h : Many S n a z) (hz : ∀ y, ¬ S z y) :
    ∀ b, S a b → ∃ k, n = k + 1 ∧ Many S k b z := by
  induction h with
  | nil => intro b hb; exact absurd hb (hz b)
  | @cons n x y z hs hm ih =>
    intro b hb
    rcases hd x y b hs hb with rfl | ⟨d, h1, h2⟩
    · exact ⟨n, rfl, hm⟩
    · obtain ⟨k, e, hk⟩ := ih hz d h1
      exact ⟨n, rfl, by rw [e]; exact .cons h2 hk⟩

theorem Diamond.all (hd : Diamond S) {m n : Nat} {a b z : α} (hb : Many S m a b) (h : Many S n a z) (hz : ∀ y, ¬ S z y) :
    ∃ k, n = m + k ∧ Many S k b z := by
  induction hb generalizing n with
  | nil => exact ⟨n, by omega, h⟩
  | cons hs _ ih =>
    obtain ⟨k, e, hk⟩ := hd.one h hz _ hs
    obtain ⟨j, e2, hj⟩ := ih hk
    exact ⟨j, by omega, hj⟩
end

/-! ### One byte at a time -/

theorem readFrame_more {buf p rest : Str} (h : Net.readFrame buf = some (p, rest)) (more : Str) : Net.readFrame (buf ++ more) = some (p, rest ++ more) := by
  rw [Net.readFrame] at h ⊢
  split at h
  · cases h
  · rename_i h4
    rw [if_neg (by rw [List.length_append]; omega), List.take_append_of_le_length (by omega), List.drop_append_of_le_length (by omega)]
    split at h
    · rename_i hd _
      split at h
      · cases h
      · rename_i hl
        cases h
        rw [if_neg (by rw [List.length_append]; omega), List.take_append_of_le_length (by omega), List.drop_append_of_le_length (by omega)]
    · cases h

theorem Client.read_more {u : Setup} {c c' : Client} {buf rest out : Str} (h : c.read u buf = some (c', rest, out)) (more : Str) :
    c.read u (buf ++ more) = some (c', rest ++ more, out) := by
  cases c with
  | greeting =>
    simp only [Client.read] at h ⊢
    split at h
    · cases h
    · rename_i h4
      rw [if_neg (by rw [List.length_append]; omega), List.take_append_of_le_length (by omega), List.drop_append_of_le_length (by omega)]
      revert h
      split <;> (try split) <;> (try split) <;> (intro h; cases h; rfl)
  | joining cd s =>
    simp only [Client.read] at h ⊢
    split at h
    · cases h
    · rename_i hf
      rw [readFrame_more hf more]
      revert h
      dsimp only
      split <;> (intro h; cases h; rfl)
  | joined s => cases h
  | closed => cases h

theorem Router.read_more {u : Setup} {r r' : Router} {buf rest out : Str} (h : r.read u buf = some (r', rest, out)) (more : Str) :
    r.read u (buf ++ more) = some (r', rest ++ more, out) := by
  cases r with
  | listening =>
    simp only [Router.read] at h ⊢
    split at h
    · cases h
    · rename_i h4
      rw [if_neg (by rw [List.length_append]; omega), List.take_append_of_le_length (by omega), List.drop_append_of_le_length (by omega)]
      revert h
      split <;> (try split) <;> (intro h; cases h; rfl)
  | accepting cd i s =>
    simp only [Router.read] at h ⊢
    split at h
    · cases h
    · rename_i hf
      rw [readFrame_more hf more]
      revert h
      dsimp only
      split <;> (intro h; cases h; rfl)
  | welcomed s => cases h
  | closed => cases h

/-- Steps in which a single byte arrives. -/
inductive Tick (u : Setup) : Conn → Conn → Prop
  | up {x : Conn} (a : UInt8) (b : Str) : x.upWay = a :: b → Tick u x { x with upWay := b, upBuf := x.upBuf ++ [a] }
  | down {x : Conn} (a : UInt8) (b : Str) : x.downWay = a :: b → Tick u x { x with downWay := b, downBuf := x.downBuf ++ [a] }
  | client {x : Conn} {c : Client} {rest out : Str} : x.client.read u x.downBuf = some (c, rest, out) →
      Tick u x { x with client := c, downBuf := rest, upWay := x.upWay ++ out }
  | router {x : Conn} {r : Router} {rest out : Str} : x.router.read u x.upBuf = some (r, rest, out) →
      Tick u x { x with router := r, upBuf := rest, downWay := x.downWay ++ out }

theorem tick_diamond (u : Setup) : Diamond (Tick u) := by
  intro x y z hy hz
  obtain ⟨cl, ro, uw, ub, dw, db⟩ := x
  cases hy with
  | up a b h1 =>
    dsimp only at h1
    subst h1
    cases hz with
    | up a' b' h2 => cases h2; exact .inl rfl
    | down a' b' h2 => exact .inr ⟨_, .down a' b' h2, .up a b rfl⟩
    | client h2 => exact .inr ⟨_, .client h2, .up a (b ++ _) rfl⟩
    | router h2 => exact .inr ⟨_, .router (Router.read_more h2 [a]), .up a b rfl⟩
  | down a b h1 =>
    dsimp only at h1
    subst h1
    cases hz with
    | up a' b' h2 => exact .inr ⟨_, .up a' b' h2, .down a b rfl⟩
    | down a' b' h2 => cases h2; exact .inl rfl
    | client h2 => exact .inr ⟨_, .client (Client.read_more h2 [a]), .down a b rfl⟩
    | router h2 => exact .inr ⟨_, .router h2, .down a (b ++ _) rfl⟩
  | client h1 =>
    cases hz with
    | up a b h2 =>
      dsimp only at h2
      subst h2
      exact .inr ⟨_, .up a (b ++ _) rfl, .client h1⟩
    | down a b h2 =>
      dsimp only at h2
      subst h2
      exact .inr ⟨_, .down a b rfl, .client (Client.read_more h1 [a])⟩
    | client h2 =>
      dsimp only at h1 h2
      rw [h1] at h2
      cases h2
      exact .inl rfl
    | router h2 => exact .inr ⟨_, .router h2, .client h1⟩
  | router h1 =>
    cases hz with
    | up a b h2 =>
      dsimp only at h2
      subst h2
      exact .inr ⟨_, .up a b rfl, .router (Router.read_more h1 [a])⟩
    | down a b h2 =>
      dsimp only at h2
      subst h2
      exact .inr ⟨_, .down a (b ++ _) rfl, .router h1⟩
    | client h2 => exact .inr ⟨_, .client h2, .router h1⟩
    | router h2 =>
      dsimp only at h1 h2
      rw [h1] at h2
      cases h2
      exact .inl rfl

theorem up_ticks (u : Setup) (a : Str) : ∀ (cl : Client) (ro : Router) (b ub dw db : Str),
    Many (Tick u) a.length ⟨cl, ro, a ++ b, ub, dw, db⟩ ⟨cl, ro, b, ub ++ a, dw, db⟩ := by
  induction a with
  | nil => intro cl ro b ub dw db; rw [List.append_nil]; exact .nil
  | cons c a ih =>
    intro cl ro b ub dw db
    refine .cons (.up c (a ++ b) rfl) ?_
    have := ih cl ro b (ub ++ [c]) dw db
    rwa [List.append_assoc] at this

theorem down_ticks (u : Setup) (a : Str) : ∀ (cl : Client) (ro : Router) (uw ub b db : Str),
    Many (Tick u) a.length ⟨cl, ro, uw, ub, a ++ b, db⟩ ⟨cl, ro, uw, ub, b, db ++ a⟩ := by
  induction a with
  | nil => intro cl ro uw ub b db; rw [List.append_nil]; exact .nil
  | cons c a ih =>
    intro cl ro uw ub b db
    refine .cons (.down c (a ++ b) rfl) ?_
    have := ih cl ro uw ub b (db ++ [c])
    rwa [List.append_assoc] at this

theorem step_ticks {u : Setup} {x y : Conn} (h : Step u x y) : ∃ n, 0 < n ∧ Many (Tick u) n x y := by
  cases h with
  | up a b ha h =>
    obtain ⟨cl, ro, uw, ub, dw, db⟩ := x
    dsimp only at h
    subst h
    exact ⟨_, List.length_pos_iff.2 ha, up_ticks u a cl ro b ub dw db⟩
  | down a b ha h =>
    obtain ⟨cl, ro, uw, ub, dw, db⟩ := x
    dsimp only at h
    subst h
    exact ⟨_, List.length_pos_iff.2 ha, down_ticks u a cl ro uw ub b db⟩
  | client h => exact ⟨1, Nat.one_pos, .cons (.client h) .nil⟩
  | router h => exact ⟨1, Nat.one_pos, .cons (.router h) .nil⟩

theorem tick_step {u : Setup} {x y : Conn} (h : Tick u x y) : Step u x y := by
  cases h with
  | up a b h => exact .up [a] b (by simp) h
  | down a b h => exact .down [a] b (by simp) h
  | client h => exact .client h
  | router h => exact .router h

theorem steps_ticks {u : Setup} {n : Nat} {x y : Conn} (h : Steps u n x y) : ∃ k, n ≤ k ∧ Many (Tick u) k x y := by
  induction h with
  | nil => exact ⟨0, Nat.le_refl _, .nil⟩
  | cons hs _ ih =>
    obtain ⟨j, hj, h1⟩ := step_ticks hs
    obtain ⟨k, hk, h2⟩ := ih
    exact ⟨j + k, by omega, h1.trans h2⟩

theorem ticks_steps {u : Setup} {n : Nat} {x y : Conn} (h : Many (Tick u) n x y) : Steps u n x y := by
  induction h with
  | nil => exact .nil
  | cons hs _ ih => exact .cons (tick_step hs) ih

theorem over_ticks {u : Setup} {x : Conn} (h : Over u x) : ∀ y, ¬ Tick u x y := fun y hy => h y (tick_step hy)

/-- All executions lead to the same end. -/
theorem same_end {u : Setup} {x y z : Conn} {m n : Nat} (hy : Steps u m x y) (hz : Steps u n x z) (ho : Over u z) :
    ∃ k, Steps u k y z := by
  obtain ⟨m', -, h1⟩ := steps_ticks hy
  obtain ⟨n', -, h2⟩ := steps_ticks hz
  obtain ⟨k, -, h3⟩ := (tick_diamond u).all h1 h2 (over_ticks ho)
  exact ⟨k, ticks_steps h3⟩

/-- An end bounds the length of all executions. -/
theorem bounded {u : Setup} {x z : Conn} {n : Nat} (hz : Steps u n x z) (ho : Over u z) : ∃ k, ∀ m y, Steps u m x y → m ≤ k := by
  obtain ⟨n', -, h2⟩ := steps_ticks hz
  refine ⟨n', fun m y hy => ?_⟩
  obtain ⟨m', hm, h1⟩ := steps_ticks hy
  obtain ⟨k, e, -⟩ := (tick_diamond u).all h1 h2 (over_ticks ho)
  omega

end Wamp.Connect
