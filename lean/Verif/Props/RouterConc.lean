import Verif.Props.IdGen
import Verif.Props.Broker
import Verif.Props.DealerCalls
/-!
# C83: broker and dealer used by many goroutines

The theorems about `Broker` and `Dealer` speak of histories of calls made one after the other.  Here: whatever the goroutines do, the calls
completed so far form such a history.  How a method body is divided into single reads and writes is left open: any division will do whose
uninterrupted execution is the method as modelled.
-/
namespace Wamp
namespace Lock

/-- The bodies of `o`, each run without interruption, do what `step` says; `ret` is the returned value among the locals. -/
def Implements {S L M R : Type} (o : Obj S L M) (step : S → M → S × R) (ret : L → R) : Prop :=
  ∀ s m, ((o.atomic s m).1, ret (o.atomic s m).2) = step s m

/-- The completed calls of a configuration with their results, oldest first. -/
def results {S L M R : Type} (ret : L → R) (c : Cfg S L M) : List (M × R) := c.log.map fun d => (d.call, ret d.ret)

/-- A body in two steps: read everything, compute; write everything. -/
def twoSteps {S M R : Type} [Inhabited R] (step : S → M → S × R) : Obj S (Option S × R) M where
  entry _ := (none, default)
  body m := [fun (s, _) => (s, (some (step s m).1, (step s m).2)), fun (s, l) => (l.1.getD s, l)]

theorem twoSteps_implements {S M R : Type} [Inhabited R] (step : S → M → S × R) : Implements (twoSteps step) step Prod.snd :=
  fun _ _ => rfl

end Lock

namespace Dealer
open Lock

theorem seq_hist {w : Str → Str → Bool} {L : Type} {o : Obj State L Op} {ret : L → Res Out} (himp : Implements o (step w) ret) :
    ∀ (ms : List Op) (h : List Event) (b : State), Hist w h b → (∀ l ∈ (seqRun o b ms).1, ret l ≠ .panic) →
      Hist w ((List.zipWith (fun m l => (⟨m, ret l⟩ : Event)) ms (seqRun o b ms).1).reverse ++ h) (seqRun o b ms).2
  | [], _, _, hh, _ => hh
  | m :: ms, h, b, hh, hnp => by
    have e := himp b m
    have e1 : (o.atomic b m).1 = (step w b m).1 := by rw [← e]
    have e2 : ret (o.atomic b m).2 = (step w b m).2 := by rw [← e]
    have h0 := hnp (o.atomic b m).2 (List.mem_cons_self ..)
    rw [e2] at h0
    have hh' := hh.step m h0
    rw [← e2, ← e1] at hh'
    have := seq_hist himp ms _ _ hh' fun l hl => hnp l (List.mem_cons_of_mem _ hl)
    simpa [seqRun, List.zipWith] using this

/-- **C83** Any number of goroutines use one new dealer, scheduled in any way.  If no completed call panicked (that ends the program), the
completed calls, in the order of completion, and what they returned are a history of calls made one after the other; and whenever the mutex
is free, the dealer is in the state to which that history leads.  So C51–C69 and C84 hold for them. -/
theorem C83_dealer {w : Str → Str → Bool} {L : Type} (o : Obj State L Op) (ret : L → Res Out) (himp : Implements o (step w) ret)
    (c : Cfg State L Op) (hc : Reach o init c) (hnp : ∀ x ∈ results ret c, x.2 ≠ .panic) :
    ∃ b, Hist w ((results ret c).map fun x => (⟨x.1, x.2⟩ : Event)).reverse b ∧ (c.holder = none → c.shared = b) := by
  obtain ⟨h1, h2⟩ := C83_mutex_atomic o init c hc
  refine ⟨_, ?_, h2⟩
  have := seq_hist himp (c.log.map Done.call) [] init .new (by
    intro l hl
    rw [← h1] at hl
    obtain ⟨d, hd, rfl⟩ := List.mem_map.1 hl
    exact hnp (d.call, ret d.ret) (List.mem_map.2 ⟨d, hd, rfl⟩))
  rw [← h1, List.append_nil] at this
  have e : List.zipWith (fun m l => (⟨m, ret l⟩ : Event)) (c.log.map Done.call) (c.log.map Done.ret) =
      (results ret c).map fun x => (⟨x.1, x.2⟩ : Event) := by
    rw [results, List.map_map, List.zipWith_map, List.zipWith_self]
    rfl
  rw [← e]
  exact this

instance : Inhabited (Res Out) := ⟨.err⟩

/-- For instance, C56 for goroutines: at most one final answer is forwarded per invocation. -/
theorem C83_answers {w : Str → Str → Bool} {L : Type} (o : Obj State L Op) (ret : L → Res Out) (himp : Implements o (step w) ret)
    (c : Cfg State L Op) (hc : Reach o init c) (hnp : ∀ x ∈ results ret c, x.2 ≠ .panic) (hlen : c.log.length ≤ 2 ^ 53) (i : Nat) :
    (results ret c).countP (fun x => finalFor i ⟨x.1, x.2⟩) ≤ 1 := by
  obtain ⟨b, hh, -⟩ := C83_dealer o ret himp c hc hnp
  have := C56_once hh (by simpa [results] using hlen) i
  rw [List.countP_reverse, List.countP_map] at this
  exact this

/-- Two goroutines; one waits while the other is inside. -/
example : ∃ c, Reach (twoSteps (step noWild)) init c ∧ (results Prod.snd c).map Prod.fst = [.add (who 1), reg 1 "p"] ∧
    ∀ x ∈ results Prod.snd c, x.2 ≠ .panic := by
  have h := Reach.init (o := twoSteps (step noWild)) (s := init)
  have h := Reach.step _ _ h (.call _ 7 (.add (who 1)) rfl)
  have h := Reach.step _ _ h (.acquire _ 7 _ rfl rfl)
  have h := Reach.step _ _ h (.micro _ 7 _ _ _ _ rfl)
  have h := Reach.step _ _ h (.call _ 3 (reg 1 "p") rfl)
  have h := Reach.step _ _ h (.micro _ 7 _ _ _ _ rfl)
  have h := Reach.step _ _ h (.release _ 7 _ _ rfl)
  have h := Reach.step _ _ h (.acquire _ 3 _ rfl rfl)
  have h := Reach.step _ _ h (.micro _ 3 _ _ _ _ rfl)
  have h := Reach.step _ _ h (.micro _ 3 _ _ _ _ rfl)
  have h := Reach.step _ _ h (.release _ 3 _ _ rfl)
  refine ⟨_, h, rfl, ?_⟩
  intro x hx
  simp only [results, List.map_append, List.map_cons, List.map_nil, List.mem_append, List.mem_singleton, Cfg.init, List.not_mem_nil, false_or] at hx
  rcases hx with rfl | rfl <;> exact (nomatch ·)

end Dealer

namespace Broker
open Lock

theorem seq_hist {w : Str → Str → Bool} {L : Type} {o : Obj State L Op} {ret : L → Res Out} (himp : Implements o (step w) ret) :
    ∀ (ms : List Op) (h : List Event) (b : State), Hist w h b →
      Hist w ((List.zipWith (fun m l => (⟨m, ret l⟩ : Event)) ms (seqRun o b ms).1).reverse ++ h) (seqRun o b ms).2
  | [], _, _, hh => hh
  | m :: ms, h, b, hh => by
    have e := himp b m
    have e1 : (o.atomic b m).1 = (step w b m).1 := by rw [← e]
    have e2 : ret (o.atomic b m).2 = (step w b m).2 := by rw [← e]
    have hh' := hh.step m
    rw [← e2, ← e1] at hh'
    have := seq_hist himp ms _ _ hh'
    simpa [seqRun, List.zipWith] using this

/-- **C83** The same for a broker; by C76 no call panics (below 2^53 calls).  So C70–C82 hold for goroutines. -/
theorem C83_broker {w : Str → Str → Bool} {L : Type} (o : Obj State L Op) (ret : L → Res Out) (himp : Implements o (step w) ret)
    (c : Cfg State L Op) (hc : Reach o init c) :
    ∃ b, Hist w ((results ret c).map fun x => (⟨x.1, x.2⟩ : Event)).reverse b ∧ (c.holder = none → c.shared = b) := by
  obtain ⟨h1, h2⟩ := C83_mutex_atomic o init c hc
  refine ⟨_, ?_, h2⟩
  have := seq_hist himp (c.log.map Done.call) [] init .new
  rw [← h1, List.append_nil] at this
  have e : List.zipWith (fun m l => (⟨m, ret l⟩ : Event)) (c.log.map Done.call) (c.log.map Done.ret) =
      (results ret c).map fun x => (⟨x.1, x.2⟩ : Event) := by
    rw [results, List.map_map, List.zipWith_map, List.zipWith_self]
    rfl
  rw [← e]
  exact this

instance : Inhabited (Res Out) := ⟨.err⟩

/-- A `HasSubscription` waits for another goroutine. -/
example (w : Str → Str → Bool) (d : SessionDetails) : ∃ c, Reach (twoSteps (step w)) init c ∧
    (results Prod.snd c).map Prod.fst = [.add d, .has (str "t")] := by
  have h := Reach.init (o := twoSteps (step w)) (s := init)
  have h := Reach.step _ _ h (.call _ 7 (.add d) rfl)
  have h := Reach.step _ _ h (.acquire _ 7 _ rfl rfl)
  have h := Reach.step _ _ h (.micro _ 7 _ _ _ _ rfl)
  have h := Reach.step _ _ h (.call _ 3 (.has (str "t")) rfl)
  have h := Reach.step _ _ h (.micro _ 7 _ _ _ _ rfl)
  have h := Reach.step _ _ h (.release _ 7 _ _ rfl)
  have h := Reach.step _ _ h (.acquire _ 3 _ rfl rfl)
  have h := Reach.step _ _ h (.micro _ 3 _ _ _ _ rfl)
  have h := Reach.step _ _ h (.micro _ 3 _ _ _ _ rfl)
  have h := Reach.step _ _ h (.release _ 3 _ _ rfl)
  exact ⟨_, h, rfl⟩

end Broker
end Wamp
