import Verif.Lemmas.Lock
/-!
# C01, C02, C03: identifiers; C83 (general part): mutex-protected methods are atomic
-/
namespace Wamp

/-- The results of `n` successive `NextID` calls on a generator whose field is `g`. -/
def nextIDs (g : Nat) : Nat → List Nat
  | 0 => []
  | n + 1 => (nextID g).2 :: nextIDs (nextID g).1 n

/-- The WAMP identifier range. -/
def IsWampID (n : Nat) : Prop := 1 ≤ n ∧ n ≤ 2 ^ 53

theorem nextIDs_eq (n g : Nat) (h : g ≤ 2 ^ 53) :
    nextIDs g n = (List.range n).map (fun i => (g + i) % 2 ^ 53 + 1) := by
  induction n generalizing g with
  | zero => rfl
  | succ n ih =>
    rw [nextIDs, List.range_succ_eq_map, List.map_cons, List.map_map]
    have h1 : (nextID g).1 = g % 2 ^ 53 + 1 := by
      unfold nextID maxID; split
      · next e => subst e; simp
      · have : g < 2 ^ 53 := by omega
        simp [Nat.mod_eq_of_lt this]
    have h2 : (nextID g).2 = (nextID g).1 := rfl
    have hlt : g % 2 ^ 53 < 2 ^ 53 := Nat.mod_lt _ (by decide)
    rw [h2, h1, ih _ (by omega)]
    congr 1
    apply List.map_congr_left
    intro i _
    simp only [Function.comp]
    congr 1
    omega

/-- **C01** The results of any number of `NextID` calls on a fresh generator: the i-th (from 0) is
`i mod 2^53 + 1`; in particular all are WAMP identifiers. -/
theorem C01_nextID_closed_form (n : Nat) :
    nextIDs 0 n = (List.range n).map (fun i => i % 2 ^ 53 + 1) ∧ ∀ id ∈ nextIDs 0 n, IsWampID id := by
  have h := nextIDs_eq n 0 (by decide)
  simp only [Nat.zero_add] at h
  refine ⟨h, fun id hid => ?_⟩
  rw [h] at hid
  obtain ⟨i, -, rfl⟩ := List.mem_map.1 hid
  have : i % 2 ^ 53 < 2 ^ 53 := Nat.mod_lt _ (by decide)
  exact ⟨by omega, by omega⟩

/-- The wrap-around is reached: the call after `2^53` calls returns 1 again. -/
example : nextID (2 ^ 53) = (1, 1) ∧ nextID (2 ^ 53 - 1) = (2 ^ 53, 2 ^ 53) := by decide

/-- **C03** (refuted) `GenerateID` can return 0, which is not a WAMP identifier. -/
theorem C03_generateID_zero : ∃ r, generateID r = 0 ∧ ¬ IsWampID (generateID r) :=
  ⟨⟨0, by decide⟩, rfl, by simp [generateID, IsWampID]⟩

/-- **C03** (partial) Apart from the value 0, everything `GenerateID` returns is a WAMP identifier, and every
WAMP identifier below `2^53` can be returned. Missing from the full claim: 0 can be returned. -/
theorem C03_generateID_partial :
    (∀ r, generateID r ≠ 0 → IsWampID (generateID r)) ∧
    (∀ n, IsWampID n → n < 2 ^ 53 → ∃ r, generateID r = n) := by
  refine ⟨fun r h => ⟨by omega, ?_⟩, fun n _ hn => ⟨⟨n, hn⟩, rfl⟩⟩
  have := r.isLt
  simp only [generateID, maxID] at *
  omega

example : IsWampID (generateID ⟨12345, by decide⟩) := by simp [IsWampID, generateID]

namespace Lock

/-- **C83** (general part) However the goroutines are scheduled, the calls completed so far returned exactly what
they return when executed one after the other, uninterrupted, in completion order; and whenever the mutex is
free the shared data are those of that sequential execution. -/
theorem C83_mutex_atomic {S L M : Type} (o : Obj S L M) (s : S) (c : Cfg S L M) (h : Reach o s c) :
    c.log.map Done.ret = (seqRun o s (c.log.map Done.call)).1 ∧
    (c.holder = none → c.shared = (seqRun o s (c.log.map Done.call)).2) := by
  obtain ⟨h1, h2⟩ := reach_inv h
  refine ⟨h2, fun hn => ?_⟩
  unfold HolderOK at h1
  rw [hn] at h1
  exact h1.1

theorem nextIDObj_atomic (s : Nat) (u : Unit) :
    ((nextIDObj.atomic s u).1, (nextIDObj.atomic s u).2.ret) = nextID s := by
  simp only [Obj.atomic, nextIDObj, nextID, List.foldl]

theorem seqRun_nextIDs (s : Nat) (ms : List Unit) :
    (seqRun nextIDObj s ms).1.map IdLocals.ret = nextIDs s ms.length := by
  induction ms generalizing s with
  | nil => rfl
  | cons m ms ih =>
    have h := nextIDObj_atomic s m
    simp only [seqRun, List.map_cons, List.length_cons, nextIDs, ih]
    rw [← h]

/-- **C02** Any number of goroutines calling `NextID` on one fresh generator, scheduled in any way: the IDs
returned by the completed calls, in completion order, are 1, 2, 3, ... (wrapping after `2^53`); hence if at most
`2^53` calls have completed, no two of them returned the same ID. -/
theorem C02_nextID_concurrent (c : Cfg Nat IdLocals Unit) (h : Reach nextIDObj 0 c) :
    c.log.map (fun d => d.ret.ret) = (List.range c.log.length).map (fun i => i % 2 ^ 53 + 1) ∧
    (c.log.length ≤ 2 ^ 53 → (c.log.map (fun d => d.ret.ret)).Nodup) := by
  have h1 := (C83_mutex_atomic nextIDObj 0 c h).1
  have h2 : c.log.map (fun d => d.ret.ret) = (List.range c.log.length).map (fun i => i % 2 ^ 53 + 1) := by
    have : c.log.map (fun d => d.ret.ret) = (c.log.map Done.ret).map IdLocals.ret := by simp
    rw [this, h1, seqRun_nextIDs, (C01_nextID_closed_form _).1]
    simp
  refine ⟨h2, fun hlen => ?_⟩
  rw [h2, List.Nodup, List.pairwise_map]
  refine List.Pairwise.imp_of_mem ?_ List.nodup_range
  intro a b ha hb hab
  have := List.mem_range.1 ha
  have := List.mem_range.1 hb
  rw [Nat.mod_eq_of_lt (by omega), Nat.mod_eq_of_lt (by omega)]
  omega

/-- Non-vacuity: a schedule of two goroutines in which the second waits while the first is inside, and both
complete, with results 1 and 2. -/
example : ∃ c, Reach nextIDObj 0 c ∧ c.log.map (fun d => (d.tid, d.ret.ret)) = [(7, 1), (3, 2)] := by
  have h := Reach.init (o := nextIDObj) (s := 0)
  have h := Reach.step _ _ h (.call _ 7 () rfl)
  have h := Reach.step _ _ h (.acquire _ 7 () rfl rfl)
  have h := Reach.step _ _ h (.micro _ 7 _ _ _ _ rfl)
  have h := Reach.step _ _ h (.call _ 3 () rfl)
  have h := Reach.step _ _ h (.micro _ 7 _ _ _ _ rfl)
  have h := Reach.step _ _ h (.micro _ 7 _ _ _ _ rfl)
  have h := Reach.step _ _ h (.micro _ 7 _ _ _ _ rfl)
  have h := Reach.step _ _ h (.micro _ 7 _ _ _ _ rfl)
  have h := Reach.step _ _ h (.release _ 7 _ _ rfl)
  have h := Reach.step _ _ h (.acquire _ 3 () rfl rfl)
  have h := Reach.step _ _ h (.micro _ 3 _ _ _ _ rfl)
  have h := Reach.step _ _ h (.micro _ 3 _ _ _ _ rfl)
  have h := Reach.step _ _ h (.micro _ 3 _ _ _ _ rfl)
  have h := Reach.step _ _ h (.micro _ 3 _ _ _ _ rfl)
  have h := Reach.step _ _ h (.micro _ 3 _ _ _ _ rfl)
  have h := Reach.step _ _ h (.release _ 3 _ _ rfl)
  exact ⟨_, h, rfl⟩

end Lock
end Wamp
