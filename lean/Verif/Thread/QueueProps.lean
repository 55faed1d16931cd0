import Verif.Thread.QueueInv

/-!
Property C56: the queue is FIFO under all schedules. It holds if no call waits; a waiting call breaks it (`_false`).
-/

namespace Nanostl.Thread
variable {V : Type}

/-- The schedule calls only with timeout 0, so that no call waits. -/
def NoWait : List (Lab V) → Prop
  | [] => True
  | .produce _ t :: ls => t = 0 ∧ NoWait ls
  | .consume t :: ls => t = 0 ∧ NoWait ls
  | _ :: ls => NoWait ls

/-- The number of calls of produce. -/
def calls : List (Lab V) → Nat
  | [] => 0
  | .produce _ _ :: ls => calls ls + 1
  | _ :: ls => calls ls

/-- Both threads are about to access the same slot of the array, one to write it. -/
def Race (s : St V) : Prop := ∃ v t h, s.p = .write v t ∧ s.c = .read h ∧ slot s.size t = slot s.size h

theorem run_step {l : Lab V} {ls : List (Lab V)} {s s' : St V} (h : step l s = some s') : run (l :: ls) s = run ls s' := by rw [run, h]; rfl

theorem inv_run : ∀ (ls : List (Lab V)) {E : List V} {s : St V}, Inv E s → NoWait ls → E.length + s.p.begun + calls ls ≤ 2 ^ 31 →
    ∃ s' new, run ls s = some s' ∧ Inv (E ++ new) s' ∧ s'.stored = s.stored ++ new ∧ s'.size = s.size
  | [], E, s, h, _, _ => ⟨s, [], rfl, by rwa [List.append_nil], by rw [List.append_nil], rfl⟩
  | l :: ls, E, s, h, hn, hc => by
    have same : ∀ s1, step l s = some s1 → Inv E s1 → s1.stored = s.stored → s1.size = s.size → NoWait ls → E.length + s1.p.begun + calls ls ≤ 2 ^ 31 →
        ∃ s' new, run (l :: ls) s = some s' ∧ Inv (E ++ new) s' ∧ s'.stored = s.stored ++ new ∧ s'.size = s.size := by
      intro s1 e1 i1 st1 sz1 n1 c1
      obtain ⟨s', new, r, i, st, sz⟩ := inv_run ls i1 n1 c1
      exact ⟨s', new, by rw [run, e1]; exact r, i, by rw [st, st1], by rw [sz, sz1]⟩
    cases l with
    | produce v t =>
      obtain ⟨ht, hn⟩ := hn
      have hc' : E.length + s.p.begun + (calls ls + 1) ≤ 2 ^ 31 := hc
      cases hp : s.p with
      | idle =>
        refine same { s with p := .load v t } (by simp only [step]; rw [hp]) ?_ rfl rfl hn (by simp only [PPc.begun]; omega)
        obtain ⟨h1, h2, h3, h4, h5, h6, h7, h8, h9, h10, h11, h12, h13, h14, h15, h16, h17, h18, h19, h20⟩ := h
        simp only [hp, PPc.untaken, PPc.uncounted, PPc.unwritten] at h5 h7 h9 h14 h20
        exact ⟨h1, h2, h3, h4, h5, h6, h7, h8, h9, by simp, h11, fun w u hw => by injection hw with a b; rw [← b]; exact ht, h13, h14, by simp, by simp, h17, h18, h19, h20⟩
      | _ => exact same s (by simp only [step]; rw [hp]) h rfl rfl hn (by omega)
    | consume t =>
      obtain ⟨ht, hn⟩ := hn
      cases hp : s.c with
      | idle =>
        refine same { s with c := .load t } (by simp only [step]; rw [hp]) ?_ rfl rfl hn hc
        obtain ⟨h1, h2, h3, h4, h5, h6, h7, h8, h9, h10, h11, h12, h13, h14, h15, h16, h17, h18, h19, h20⟩ := h
        simp only [hp, CPc.taken, CPc.given, CPc.sure] at h6 h7 h8 h20
        exact ⟨h1, h2, h3, h4, h5, h6, h7, h8, h9, h10, by simp, h12, fun w hw => by injection hw with b; rw [← b]; exact ht, h14, h15, h16, by simp, by simp, h19, h20⟩
      | _ => exact same s (by simp only [step]; rw [hp]) h rfl rfl hn hc
    | pStep =>
      obtain ⟨s1, E1, e1, i1, sz1, hs⟩ := inv_pStep h (fun v t hp => by
        have : s.p.begun = 1 := by rw [hp]; rfl
        omega)
      rcases hs with ⟨rfl, st1, b1⟩ | ⟨v, rfl, st1, b1, b2⟩
      · exact same s1 e1 i1 st1 sz1 hn (by have : calls (Lab.pStep :: ls) = calls ls := rfl; omega)
      · obtain ⟨s', new, r, i, st, sz⟩ := inv_run ls i1 hn (by
          have : calls (Lab.pStep :: ls) = calls ls := rfl
          rw [List.length_append, List.length_singleton]; omega)
        exact ⟨s', v :: new, by rw [run]; show (pStep s).bind _ = _; rw [e1]; exact r, by rwa [List.append_assoc] at i, by rw [st, st1, List.append_assoc]; rfl, by rw [sz, sz1]⟩
    | cStep =>
      obtain ⟨s1, e1, i1, sz1, st1, p1⟩ := inv_cStep h
      exact same s1 e1 i1 st1 sz1 hn (by rw [p1]; exact hc)
    | pTimeout =>
      refine same s ?_ h rfl rfl hn hc
      cases hp : s.p with
      | wait v t => exact absurd hp (h.nowaitP v t)
      | _ => simp only [step]; rw [hp]

theorem inv_init {pl : Plat} {junk size count : Int} {values : List V} (hs : 0 < size) (hs' : size < 2 ^ 31) (hv : values.length = size) (hc : 0 ≤ count)
    (hpl : pl = .win ∨ count = 0) : Inv (values.take count.toNat) (init pl junk size count values) := by
  have hl : ((values.take count.toNat).length : Int) = if count > size then size else count := by
    rw [List.length_take]; split <;> omega
  have hst : store pl junk (if count > size then size else count) = if count > size then size else count := by
    rcases hpl with rfl | rfl
    · rfl
    · rw [if_neg (by omega)]; cases pl <;> rfl
  have h0 : store pl junk 0 = 0 := by cases pl <;> rfl
  have hle : (if count > size then size else count) ≤ size := by split <;> omega
  have hge : 0 ≤ (if count > size then size else count) := by split <;> omega
  refine ⟨hs, hs', hv, by omega, ?_, ?_, ?_, ?_, ?_, by simp [init], by simp [init], by simp [init], by simp [init], Nat.zero_le _, by simp [init], by simp [init], by simp [init], by simp [init],
    rfl, ?_⟩
  · show store pl junk _ = _ - ((0 : Nat) : Int); rw [hst, hl]; omega
  · exact h0
  · show store pl junk _ = _ - ((0 : Nat) : Int) - (((0 : Nat) : Int) + ((0 : Nat) : Int)); rw [hst, hl]; omega
  · show ((0 : Nat) : Int) ≤ store pl junk _; rw [hst]; exact hge
  · show store pl junk _ + ((0 : Nat) : Int) ≤ size; rw [hst]; omega
  · intro i _ hi
    have hi' : i < (values.take count.toNat).length := by
      have : (init pl junk size count values).p.unwritten = 0 := rfl
      omega
    show values[i % size.toNat]? = _
    rw [List.length_take] at hi'
    rw [Nat.mod_eq_of_lt (by omega), List.getElem?_take, if_pos (by omega)]

/-- C56, as far as it holds: for every queue size, initial contents and schedule of one producer and one consumer in which no call waits, no access is
outside the array and there is no data race on it; the values returned by consume are, in order, the first ones of those in the queue at first
followed by those stored by produce: none is lost, duplicated, or invented; the count is never negative or above the size, and is the exact number of
values present whenever no call is in progress. Missing: calls that wait (`c56_stale_signal_false`, `c56_timeout_overwrites_false`), more than 2^31
values (`c56_many_values_false`), and initial contents outside Windows (`c56_init_false`). -/
theorem c56_fifo_partial (pl : Plat) (junk size count : Int) (values : List V) (hs : 0 < size) (hs' : size < 2 ^ 31) (hv : values.length = size)
    (hc : 0 ≤ count) (hpl : pl = .win ∨ count = 0) (ls : List (Lab V)) (hn : NoWait ls) (hm : (values.take count.toNat).length + calls ls ≤ 2 ^ 31) :
    ∃ s, run ls (init pl junk size count values) = some s ∧
      s.got <+: values.take count.toNat ++ s.stored ∧
      0 ≤ queueCount s ∧ queueCount s ≤ size ∧
      (s.p = .idle → s.c = .idle → queueCount s = (values.take count.toNat ++ s.stored).length - s.got.length) ∧
      ¬Race s := by
  obtain ⟨s, new, r, i, st, sz⟩ := inv_run ls (inv_init (junk := junk) hs hs' hv hc hpl) hn (by have : (init pl junk size count values).p.begun = 0 := rfl; omega)
  have hst : s.stored = new := st
  rw [← hst] at i
  have hsz : s.size = size := sz
  have h1 := i.low
  have h2 := i.high
  have hi : queueCount s = s.count := i32_id (by omega) (by omega)
  refine ⟨s, r, ?_, by omega, by omega, ?_, ?_⟩
  · rw [i.pre]; exact List.take_prefix _ _
  · intro hp hcc
    have := i.count
    rw [hp, hcc] at this
    simp only [PPc.uncounted, CPc.given] at this
    omega
  · rintro ⟨v, t, h, hp, hcc, he⟩
    have e1 := i.write v t hp
    have e2 := i.read h hcc
    have e3 := i.count
    simp only [hp, hcc, PPc.uncounted, CPc.given, CPc.sure] at e3 h1 h2
    rw [e1, e2, slot_eq (by omega), slot_eq (by omega)] at he
    have hm := Option.some.inj he
    generalize (values.take count.toNat ++ s.stored).length = n at *
    have hd : s.size.toNat ∣ (n - 1) - s.got.length := (Nat.modEq_iff_dvd' (show s.got.length ≤ n - 1 by omega)).1 hm.symm
    have := Nat.le_of_dvd (by omega) hd
    omega

/-- A call has not yet decided to store its value. -/
def PPc.asking : PPc V → Nat
  | .load _ _ => 1
  | .wait _ _ => 1
  | _ => 0

/-- No more values are stored than calls made. -/
theorem stored_le : ∀ (ls : List (Lab V)) (s s' : St V), run ls s = some s' → s'.stored.length + s'.p.asking ≤ s.stored.length + s.p.asking + calls ls
  | [], s, s', h => by cases h; exact Nat.le_add_right _ _
  | l :: ls, s, s', h => by
    rw [run, Option.bind_eq_bind, Option.bind_eq_some_iff] at h
    obtain ⟨s1, h1, h2⟩ := h
    have ih := stored_le ls s1 s' h2
    have : s1.stored.length + s1.p.asking + calls ls ≤ s.stored.length + s.p.asking + calls (l :: ls) := by
      obtain ⟨size, values, count, head, tail, dr, so, p, c, stored, full, got, empty⟩ := s
      cases l with
      | produce v t => cases p <;> (simp only [step, Option.some.injEq] at h1; subst h1; simp [calls, PPc.asking]; try omega)
      | consume t => cases c <;> (simp only [step, Option.some.injEq] at h1; subst h1; simp [calls])
      | pStep =>
        cases p <;> simp only [step, pStep] at h1
        case write =>
          rw [Option.bind_eq_bind, Option.bind_eq_some_iff] at h1
          obtain ⟨i, _, h1⟩ := h1
          split at h1
          · cases h1; simp [calls, PPc.asking]
          · exact absurd h1 (by simp)
        all_goals (try split at h1) <;> (try split at h1) <;> (simp only [Option.some.injEq] at h1; subst h1; simp [calls, PPc.asking])
      | cStep =>
        cases c <;> simp only [step, cStep] at h1
        case read =>
          rw [Option.bind_eq_bind, Option.bind_eq_some_iff] at h1
          obtain ⟨i, _, h1⟩ := h1
          rw [Option.bind_eq_bind, Option.bind_eq_some_iff] at h1
          obtain ⟨v, _, h1⟩ := h1
          cases h1; simp [calls]
        all_goals (try split at h1) <;> (try split at h1) <;> (simp only [Option.some.injEq] at h1; subst h1; simp [calls])
      | pTimeout =>
        cases p <;> simp only [step] at h1
        all_goals (try split at h1) <;> (simp only [Option.some.injEq] at h1; subst h1; simp [calls, PPc.asking])
    omega

/-! ### Calls when the other thread is not in a call -/

/-- C56: from any state that such a schedule can lead to, if no call is in progress: a call of consume alone returns the oldest value not yet returned
if there is one, and otherwise null; a call of produce alone stores its value if there are fewer than `size` values, and otherwise gives up. -/
theorem c56_quiet_calls (pl : Plat) (junk size count : Int) (values : List V) (hs : 0 < size) (hs' : size < 2 ^ 31) (hv : values.length = size)
    (hc : 0 ≤ count) (hpl : pl = .win ∨ count = 0) (ls : List (Lab V)) (hn : NoWait ls) (hm : (values.take count.toNat).length + calls ls < 2 ^ 31) (s : St V)
    (hr : run ls (init pl junk size count values) = some s) (hp : s.p = .idle) (hq : s.c = .idle) :
    (∃ s', run (.consume 0 :: List.replicate 5 .cStep) s = some s' ∧ s'.c = .idle ∧ s'.p = .idle ∧ s'.stored = s.stored ∧
      (queueCount s = 0 → s'.got = s.got ∧ s'.empty = s.empty + 1) ∧
      (queueCount s ≠ 0 → s'.empty = s.empty ∧ s'.got = (values.take count.toNat ++ s.stored).take (s.got.length + 1) ∧ s'.got.length = s.got.length + 1)) ∧
    (∀ v, ∃ s', run (.produce v 0 :: List.replicate 6 .pStep) s = some s' ∧ s'.p = .idle ∧ s'.c = .idle ∧ s'.got = s.got ∧
      (queueCount s = size → s'.stored = s.stored ∧ s'.full = s.full + 1) ∧ (queueCount s ≠ size → s'.stored = s.stored ++ [v] ∧ s'.full = s.full)) := by
  obtain ⟨s0, new, r, i, st, sz⟩ := inv_run ls (inv_init (junk := junk) hs hs' hv hc hpl) hn (by have : (init pl junk size count values).p.begun = 0 := rfl; omega)
  obtain rfl : s = s0 := Option.some.inj (hr.symm.trans r)
  have hst : s.stored = new := st
  rw [← hst] at i
  have hlen : (values.take count.toNat ++ s.stored).length < 2 ^ 31 := by
    have := stored_le ls _ _ hr
    have e : (init pl junk size count values).p.asking = 0 := rfl
    have e2 : (init pl junk size count values).stored.length = 0 := rfl
    rw [List.length_append]; omega
  have hsz : s.size = size := sz
  subst hsz
  clear st sz hst hr r hn hm
  generalize values.take count.toNat ++ s.stored = E at *
  obtain ⟨h1, h2, h3, h4, h5, h6, h7, h8, h9, h10, h11, h12, h13, h14, h15, h16, h17, h18, h19, h20⟩ := i
  obtain ⟨size, values', count', head, tail, dr, so, p, c, stored, full, got, empty⟩ := s
  simp only at hp hq
  subst hp hq
  simp only [PPc.untaken, PPc.uncounted, PPc.unwritten, CPc.taken, CPc.given, CPc.sure] at *
  have hi : i32 count' = count' := i32_id (by omega) (by omega)
  rw [show queueCount (V := V) ⟨size, values', count', head, tail, dr, so, .idle, .idle, stored, full, got, empty⟩ = count' from hi]
  constructor
  · by_cases h0 : count' = 0
    · exact ⟨_, by simp only [run, step, cStep, load, hi, List.replicate, Option.bind_eq_bind, Option.bind_some, if_pos h0, if_true]; rfl, rfl, rfl, rfl, fun _ => ⟨rfl, rfl⟩, fun h => absurd h0 h⟩
    · have hlt : got.length < E.length := by omega
      have hh : i32 head = (got.length : Int) := by rw [i32_id (by omega) (by omega)]; omega
      have hval : values'[got.length % size.toNat]? = some E[got.length] := by
        rw [h20 got.length (by omega) (by omega)]; exact List.getElem?_eq_getElem hlt
      have htk : got ++ [E[got.length]] = E.take (got.length + 1) := by
        rw [List.take_add_one, List.getElem?_eq_getElem hlt, ← h19]; rfl
      by_cases hf : count' = size
      · refine ⟨_, by simp only [run, step, List.replicate, Option.bind_eq_bind, Option.bind_some, cStep, load, hi, if_neg h0, inc, hh, slot_eq h1, hval, dec, if_pos hf]; rfl, rfl, rfl, rfl, ?_⟩
        exact ⟨fun h => absurd h h0, fun _ => ⟨rfl, htk, List.length_append⟩⟩
      · refine ⟨_, by simp only [run, step, List.replicate, Option.bind_eq_bind, Option.bind_some, cStep, load, hi, if_neg h0, inc, hh, slot_eq h1, hval, dec, if_neg hf]; rfl, rfl, rfl, rfl, ?_⟩
        exact ⟨fun h => absurd h h0, fun _ => ⟨rfl, htk, List.length_append⟩⟩
  · intro v
    by_cases hf : count' = size
    · exact ⟨_, by simp only [run, step, pStep, load, hi, List.replicate, Option.bind_eq_bind, Option.bind_some, if_pos hf, if_true]; rfl, rfl, rfl, rfl, fun _ => ⟨rfl, rfl⟩, fun h => absurd hf h⟩
    · have ht : i32 tail = (E.length : Int) := by rw [i32_id (by omega) (by omega)]; omega
      have hlt : E.length % size.toNat < values'.length := by
        have : E.length % size.toNat < size.toNat := Nat.mod_lt _ (by omega)
        omega
      by_cases h0 : count' = 0
      · refine ⟨_, by simp only [run, step, List.replicate, Option.bind_eq_bind, Option.bind_some, pStep, load, hi, if_neg hf, inc, ht, slot_eq h1, if_pos hlt, if_pos h0]; rfl, rfl, rfl, rfl, ?_⟩
        exact ⟨fun h => absurd h hf, fun _ => ⟨rfl, rfl⟩⟩
      · refine ⟨_, by simp only [run, step, List.replicate, Option.bind_eq_bind, Option.bind_some, pStep, load, hi, if_neg hf, inc, ht, slot_eq h1, if_pos hlt, if_neg h0]; rfl, rfl, rfl, rfl, ?_⟩
        exact ⟨fun h => absurd h hf, fun _ => ⟨rfl, rfl⟩⟩

/-! ### Where it fails -/

/-- C56 is false if a call waits: a signal raised for a value that has since been consumed ends the wait of the next consume, which then returns
a value that was never stored, and makes the count negative. -/
theorem c56_stale_signal_false (pl : Plat) (junk size : Int) (values : List V) (hs : 1 < size) (hs' : size < 2 ^ 31) (hv : values.length = size) (v : V) :
    ∃ ls s, run ls (init pl junk size 0 values) = some s ∧ s.stored = [v] ∧ s.got = [v] ++ (values[1]?).toList ∧ queueCount s = -1 ∧ ¬s.got <+: s.stored := by
  obtain ⟨x, y, vs, rfl⟩ : ∃ x y vs, values = x :: y :: vs := by
    rcases values with _ | ⟨x, _ | ⟨y, vs⟩⟩
    · simp at hv; omega
    · simp at hv; omega
    · exact ⟨x, y, vs, rfl⟩
  have e0 : ∀ d, store pl d 0 = 0 := by intro d; cases pl <;> rfl
  have i0 : i32 0 = 0 := by decide
  have i1 : i32 1 = 1 := by decide
  have s0 : slot size 0 = some 0 := slot_eq (i := 0) (by omega)
  have s1 : slot size 1 = some 1 := by
    have := slot_eq (i := 1) (show 0 < size by omega)
    rwa [Nat.mod_eq_of_lt (by omega)] at this
  have n0 : ¬(0 : Int) = size := by omega
  have n1 : ¬(1 : Int) = size := by omega
  refine ⟨.produce v (-1) :: (List.replicate 5 .pStep ++ .consume (-1) :: (List.replicate 4 .cStep ++ .consume (-1) :: List.replicate 5 .cStep)), ?_⟩
  refine ⟨⟨size, v :: y :: vs, -1, 2, 1, false, false, .idle, .idle, [v], 0, [v, y], 0⟩, ?_, rfl, rfl, by show i32 (-1) = -1; decide, ?_⟩
  · rw [init, if_neg (by omega), e0]
    simp only [List.replicate, List.cons_append, List.nil_append]
    repeat refine (run_step (by simp only [step, pStep, cStep, load, i0, i1, inc, dec, s0, s1, n0, n1, List.cons_append, List.nil_append, Option.bind_eq_bind, Option.bind_some, if_true, if_false,
      List.length_cons, List.set_cons_zero, List.getElem?_cons_zero, List.getElem?_cons_succ, Int.zero_add, Int.reduceNeg, Int.reduceEq, Int.reduceSub, Int.reduceAdd, Nat.zero_lt_succ]; try rfl)).trans ?_
    rfl
  · intro h
    have := h.length_le
    simp at this

/-- C56 is false if the producer's wait times out: its result is ignored, and the value overwrites one not yet consumed; the count is then above the
size. -/
theorem c56_timeout_overwrites_false (pl : Plat) (junk : Int) (x a b : V) (t : Int) (ht : 0 < t) :
    ∃ ls s, run ls (init pl junk 1 0 [x]) = some s ∧ s.stored = [a, b] ∧ s.got = [] ∧ queueCount s = 2 ∧ s.p = .idle ∧ s.c = .idle ∧
      ∃ s', run (.consume 0 :: List.replicate 4 .cStep) s = some s' ∧ s'.got = [b] := by
  have e0 : ∀ d, store pl d 0 = 0 := by intro d; cases pl <;> rfl
  have i0 : i32 0 = 0 := by decide
  have i1 : i32 1 = 1 := by decide
  have i2 : i32 2 = 2 := by decide
  have s0 : slot 1 0 = some 0 := slot_eq (i := 0) (by omega)
  have s1 : slot 1 1 = some 0 := slot_eq (i := 1) (by omega)
  have t0 : ¬t = 0 := by omega
  refine ⟨.produce a 0 :: (List.replicate 5 .pStep ++ .produce b t :: .pStep :: .pTimeout :: List.replicate 3 .pStep), ?_⟩
  refine ⟨⟨1, [b], 2, 0, 2, true, false, .idle, .idle, [a, b], 0, [], 0⟩, ?_, rfl, rfl, i2, rfl, rfl, ⟨1, [b], 1, 1, 2, true, false, .idle, .idle, [a, b], 0, [b], 0⟩, ?_, rfl⟩
  · rw [init, if_neg (by omega), e0]
    simp only [List.replicate, List.cons_append, List.nil_append]
    repeat refine (run_step (by simp only [step, pStep, load, i0, i1, inc, s0, s1, t0, ht, List.cons_append, List.nil_append, Option.bind_eq_bind, Option.bind_some, if_true, if_false,
      List.length_cons, List.length_nil, List.set_cons_zero, Int.reduceEq, Int.reduceAdd, Nat.zero_lt_succ, Int.zero_add, Nat.zero_add]; try rfl)).trans ?_
    rfl
  · simp only [List.replicate, List.cons_append, List.nil_append]
    repeat refine (run_step (by simp only [step, cStep, load, i0, i2, inc, dec, s0, Option.bind_eq_bind, Option.bind_some, if_true, if_false,
      List.getElem?_cons_zero, List.nil_append, Int.reduceEq, Int.reduceSub, Int.zero_add]; try rfl)).trans ?_
    rfl

/-- C56 is false of initial contents outside Windows: they are lost. -/
theorem c56_init_false (junk size count : Int) (values : List V) : queueCount (init .posix junk size count values) = 0 ∧ (init .posix junk size count values).tail = 0 :=
  ⟨by show i32 0 = 0; decide, rfl⟩

/-- One value through the empty queue. -/
def cycle (v : V) : List (Lab V) := .produce v 0 :: (List.replicate 5 .pStep ++ .consume 0 :: List.replicate 5 .cStep)

/-- The empty queue after `n` values. -/
structure Emp (sz : Int) (n : Nat) (s : St V) : Prop where
  size : s.size = sz
  len : s.values.length = sz
  count : s.count = 0
  head : s.head = n
  tail : s.tail = n
  p : s.p = .idle
  c : s.c = .idle

theorem run_append : ∀ (ls ms : List (Lab V)) (s : St V), run (ls ++ ms) s = (run ls s).bind (run ms)
  | [], _, _ => rfl
  | l :: ls, ms, s => by
    rw [List.cons_append, run, run]
    cases step l s with
    | none => rfl
    | some s1 => exact run_append ls ms s1

theorem cycle_ok {size : Int} {n i : Nat} {s : St V} (h : Emp size n s) (hs : 0 < size) (hi : slot size (i32 n) = some i) (hl : i < size) (v : V) :
    ∃ s', run (cycle v) s = some s' ∧ Emp size (n + 1) s' := by
  obtain ⟨size', values, count, head, tail, dr, so, p, c, stored, full, got, empty⟩ := s
  obtain ⟨h1, h2, h3, h4, h5, h6, h7⟩ := h
  simp only at h1 h2 h3 h4 h5 h6 h7
  subst h1 h3 h4 h5 h6 h7
  have i0 : i32 0 = 0 := by decide
  have i1 : i32 1 = 1 := by decide
  have n0 : ¬(0 : Int) = size' := by omega
  have hlt : i < values.length := by omega
  have hg : (values.set i v)[i]? = some v := by rw [List.getElem?_set_self hlt]
  by_cases hz : (1 : Int) = size'
  · subst hz
    refine ⟨⟨1, values.set i v, 0, n + 1, n + 1, true, true, .idle, .idle, stored ++ [v], full, got ++ [v], empty⟩, ?_, ⟨rfl, by simpa using h2, rfl, by simp, by simp, rfl, rfl⟩⟩
    simp only [cycle, List.replicate, List.cons_append, List.nil_append]
    repeat refine (run_step (by simp only [step, pStep, cStep, load, i0, i1, inc, dec, hi, hlt, hg, List.cons_append, List.nil_append, Option.bind_eq_bind, Option.bind_some, if_true, if_false,
      Int.reduceEq, Int.reduceAdd, Int.reduceSub, Int.zero_add]; try rfl)).trans ?_
    rfl
  · refine ⟨⟨size', values.set i v, 0, n + 1, n + 1, true, so, .idle, .idle, stored ++ [v], full, got ++ [v], empty⟩, ?_, ⟨rfl, by simpa using h2, rfl, by simp, by simp, rfl, rfl⟩⟩
    simp only [cycle, List.replicate, List.cons_append, List.nil_append]
    repeat refine (run_step (by simp only [step, pStep, cStep, load, i0, i1, inc, dec, hi, hlt, hg, n0, hz, List.cons_append, List.nil_append, Option.bind_eq_bind, Option.bind_some, if_true, if_false,
      Int.reduceEq, Int.reduceSub, Int.zero_add]; try rfl)).trans ?_
    rfl

theorem cycle_ub {size : Int} {n : Nat} {s : St V} (h : Emp size n s) (hs : 0 < size) (hi : slot size (i32 n) = none) (v : V) : run (cycle v) s = none := by
  obtain ⟨size', values, count, head, tail, dr, so, p, c, stored, full, got, empty⟩ := s
  obtain ⟨h1, h2, h3, h4, h5, h6, h7⟩ := h
  simp only at h1 h2 h3 h4 h5 h6 h7
  subst h1 h3 h4 h5 h6 h7
  have i0 : i32 0 = 0 := by decide
  have n0 : ¬(0 : Int) = size' := by omega
  simp only [cycle, List.replicate, List.cons_append, List.nil_append]
  repeat refine (run_step (by simp only [step, pStep, load, i0, inc, n0, if_false]; try rfl)).trans ?_
  rw [run]
  simp only [step, pStep, hi, Option.bind_eq_bind, Option.bind_none]

theorem cycles_ok {size : Int} (hs : 0 < size) {v : V} : ∀ (k : Nat) {s : St V}, Emp size 0 s → k ≤ 2 ^ 31 →
    ∃ s', run (List.replicate k (cycle v)).flatten s = some s' ∧ Emp size k s'
  | 0, s, h, _ => ⟨s, rfl, h⟩
  | k + 1, s, h, hk => by
    obtain ⟨s', r, h'⟩ := cycles_ok hs (v := v) k h (by omega)
    have hi : i32 k = k := i32_id (by omega) (by omega)
    obtain ⟨s'', r', h''⟩ := cycle_ok h' hs (by rw [hi]; exact slot_eq hs) (by have := Nat.mod_lt k (show 0 < size.toNat by omega); omega) v
    refine ⟨s'', ?_, h''⟩
    rw [List.replicate_succ', List.flatten_append, run_append, r]
    simpa using r'

theorem noWait_append : ∀ (ls ms : List (Lab V)), NoWait ls → NoWait ms → NoWait (ls ++ ms)
  | [], _, _, h => h
  | .produce _ _ :: ls, ms, h, h' => ⟨h.1, noWait_append ls ms h.2 h'⟩
  | .consume _ :: ls, ms, h, h' => ⟨h.1, noWait_append ls ms h.2 h'⟩
  | .pStep :: ls, ms, h, h' => noWait_append ls ms h h'
  | .cStep :: ls, ms, h, h' => noWait_append ls ms h h'
  | .pTimeout :: ls, ms, h, h' => noWait_append ls ms h h'

theorem noWait_cycles (v : V) : ∀ k, NoWait (List.replicate k (cycle v)).flatten
  | 0 => trivial
  | k + 1 => by
    rw [List.replicate_succ, List.flatten_cons]
    exact noWait_append _ _ (by simp [cycle, NoWait, List.replicate]) (noWait_cycles v k)

/-- C56 is false after 2^31 values, even if no call waits and there is never more than one value in the queue: the counter of the slots wraps to a
negative number and the next access is outside the array. -/
theorem c56_many_values_false (pl : Plat) (junk size : Int) (values : List V) (hs : 1 < size) (hs' : size < 2 ^ 31) (hv : values.length = size) (v : V) :
    ∃ k ≤ 2 ^ 31 + 2, NoWait (List.replicate k (cycle v)).flatten ∧ run (List.replicate k (cycle v)).flatten (init pl junk size 0 values) = none := by
  have h0 : Emp size 0 (init pl junk size 0 values) := by
    have e0 : ∀ d, store pl d 0 = 0 := by intro d; cases pl <;> rfl
    simp only [init, e0, show ¬(0 : Int) > size by omega, if_false]
    exact ⟨rfl, hv, rfl, rfl, rfl, rfl, rfl⟩
  obtain ⟨s, r, h⟩ := cycles_ok (v := v) (show 0 < size by omega) (2 ^ 31) h0 (Nat.le_refl _)
  have hw : i32 ((2 ^ 31 : Nat) : Int) = -2 ^ 31 := by decide
  have hw' : i32 ((2 ^ 31 + 1 : Nat) : Int) = -2 ^ 31 + 1 := by decide
  have app : ∀ (k : Nat) (s : St V), run (List.replicate k (cycle v)).flatten (init pl junk size 0 values) = some s →
      run (List.replicate (k + 1) (cycle v)).flatten (init pl junk size 0 values) = run (cycle v) s := by
    intro k s hr
    rw [List.replicate_succ', List.flatten_append, run_append, hr]
    simp
  cases hc : slot size (-2 ^ 31) with
  | none => exact ⟨2 ^ 31 + 1, by omega, noWait_cycles v _, by rw [app _ _ r]; exact cycle_ub h (by omega) (by rw [hw]; exact hc) v⟩
  | some i =>
    have hge : 0 ≤ Int.tmod (-2 ^ 31) size := by
      by_contra hneg
      rw [slot, if_neg (by omega), if_neg hneg] at hc
      exact absurd hc (by simp)
    have hz : Int.tmod (-2 ^ 31) size = 0 := by
      rw [Int.neg_tmod, Int.tmod_eq_emod_of_nonneg (by decide)] at hge ⊢
      have := Int.emod_nonneg (2 ^ 31) (show size ≠ 0 by omega)
      omega
    have hne : slot size (-2 ^ 31 + 1) = none := by
      rw [slot, if_neg (by omega), if_neg]
      have : Int.tmod (-2 ^ 31 + 1) size = 1 - size := by
        rw [Int.neg_tmod, Int.tmod_eq_emod_of_nonneg (by decide)] at hz
        rw [show (-2 ^ 31 + 1 : Int) = -(2 ^ 31 - 1) from rfl, Int.neg_tmod, Int.tmod_eq_emod_of_nonneg (by decide)]
        obtain ⟨q, hq⟩ := Int.dvd_of_emod_eq_zero (show (2 ^ 31 : Int) % size = 0 by omega)
        rw [hq, show size * q - 1 = (size - 1) + size * (q - 1) by rw [Int.mul_sub]; omega, Int.add_mul_emod_self_left, Int.emod_eq_of_lt (by omega) (by omega)]
        omega
      omega
    have hi0 : i = 0 := by
      rw [slot, if_neg (by omega), if_pos hge, hz] at hc
      exact (Option.some.inj hc).symm
    obtain ⟨s', r', h'⟩ := cycle_ok h (by omega) (by rw [hw]; exact hc) (by omega) v
    have r1 : run (List.replicate (2 ^ 31 + 1) (cycle v)).flatten (init pl junk size 0 values) = some s' := by rw [app _ _ r, r']
    exact ⟨2 ^ 31 + 2, by omega, noWait_cycles v _, by rw [app _ _ r1]; exact cycle_ub h' (by omega) (by rw [hw']; exact hne) v⟩

/-! ### The hypotheses can be met -/

/-- A queue of two slots with one value in it, on Windows; produce and consume overlap. -/
example := c56_fifo_partial .win 7 2 1 [10, 20] (by decide) (by decide) rfl (by decide) (.inl rfl)
  [.produce 30 0, .consume 0, .pStep, .cStep, .pStep, .cStep, .pStep, .cStep, .cStep, .pStep] (by simp [NoWait]) (by simp [calls])
/-- Both values get through. -/
example : (run [.produce 30 0, .consume 0, .pStep, .cStep, .pStep, .cStep, .pStep, .cStep, .cStep, .pStep, .pStep, .consume 0, .cStep, .cStep, .cStep, .cStep]
    (init .posix 7 2 0 [10, 20])).map (fun s => (s.got, s.stored, s.empty)) = some ([30], [30], 1) := by decide
example := c56_quiet_calls .posix 7 2 0 [10, 20] (by decide) (by decide) rfl (by decide) (.inr rfl) [.produce 30 0, .pStep, .pStep, .pStep, .pStep, .pStep]
  (by simp [NoWait]) (by simp [calls]) _ rfl rfl rfl
example := c56_stale_signal_false .posix 7 2 [10, 20] (by decide) (by decide) rfl 30
example := c56_timeout_overwrites_false .posix 7 10 20 30 5 (by decide)
example := c56_many_values_false .posix 7 2 [10, 20] (by decide) (by decide) rfl 30

end Nanostl.Thread
