import Verif.Seq.Model
import Mathlib.Data.List.Basic
import Mathlib.Algebra.BigOperators.Group.List.Basic

/-!
C59: compile-time integer sequences.
-/

namespace Nanostl.Seq

theorem range_double (s : Nat) : List.range s ++ (List.range s).map (· + s) = List.range (2 * s) := by
  rw [Nat.two_mul, List.range_add]
  congr 1
  apply List.map_congr_left
  intro a _
  omega

theorem and_two_pow_ne (n k : Nat) : n &&& 2 ^ k ≠ 0 ↔ (n / 2 ^ k) % 2 = 1 := by
  constructor
  · intro h
    by_contra hc
    apply h
    apply Nat.eq_of_testBit_eq
    intro i
    rw [Nat.testBit_and, Nat.testBit_two_pow, Nat.zero_testBit]
    by_cases hi : k = i
    · subst hi
      have : Nat.testBit n k = false := by
        rw [Nat.testBit_eq_decide_div_mod_eq]
        simp only [decide_eq_false_iff_not]
        exact hc
      simp [this]
    · simp [hi]
  · intro h hc
    have h1 : Nat.testBit (n &&& 2 ^ k) k = true := by
      rw [Nat.testBit_and, Nat.testBit_two_pow, Nat.testBit_eq_decide_div_mod_eq]
      simp [h]
    rw [hc, Nat.zero_testBit] at h1
    cases h1

/-- Invariant of the doubling: entering the step for `M = 2^k` with bit `k` of `N`, `S` is `N / 2^(k+1)`. -/
theorem generate_eq (n : Nat) : ∀ (k f : Nat) (v : Bool), (v = true ↔ (n / 2 ^ k) % 2 = 1) → k + 2 ≤ f →
    generate n f v false (2 ^ k) (n / 2 ^ (k + 1)) (List.range (n / 2 ^ (k + 1))) = some (List.range n) := by
  intro k
  induction k with
  | zero =>
    intro f v hv hf
    obtain ⟨f, rfl⟩ : ∃ g, f = g + 2 := ⟨f - 2, by omega⟩
    simp only [Nat.pow_zero, Nat.div_one, Nat.zero_add, Nat.pow_one] at hv ⊢
    cases v
    · have : n % 2 ≠ 1 := fun h => by simpa using hv.2 h
      have hn : n = 2 * (n / 2) := by omega
      simp only [generate, Nat.reduceDiv, Nat.and_zero, ne_eq, not_true_eq_false, decide_false, decide_true, generate]
      rw [range_double, ← hn]
    · have : n % 2 = 1 := hv.1 rfl
      have hn : n = 2 * (n / 2) + 1 := by omega
      simp only [generate, Nat.reduceDiv, Nat.and_zero, ne_eq, not_true_eq_false, decide_false, decide_true, generate]
      rw [range_double, ← List.range_succ, Nat.succ_eq_add_one, ← hn]
  | succ k ih =>
    intro f v hv hf
    obtain ⟨f, rfl⟩ : ∃ g, f = g + 1 := ⟨f - 1, by omega⟩
    have hm : 2 ^ (k + 1) / 2 = 2 ^ k := by rw [Nat.pow_succ, Nat.mul_div_cancel _ (by decide)]
    have hp : 0 < 2 ^ k := Nat.two_pow_pos k
    have hd : n / 2 ^ (k + 1 + 1) = n / 2 ^ (k + 1) / 2 := by rw [Nat.pow_succ, Nat.div_div_eq_div_mul]
    have hE : decide (2 ^ k = 0) = false := by simp
    have hV : decide (n &&& 2 ^ k ≠ 0) = true ↔ (n / 2 ^ k) % 2 = 1 := by rw [decide_eq_true_iff]; exact and_two_pow_ne n k
    have := ih f (decide (n &&& 2 ^ k ≠ 0)) hV (by omega)
    rw [hd]
    cases v
    · have h1 : (n / 2 ^ (k + 1)) % 2 ≠ 1 := fun h => by simpa using hv.2 h
      have hn : 2 * (n / 2 ^ (k + 1) / 2) = n / 2 ^ (k + 1) := by omega
      simp only [generate, hm, hE]
      rw [range_double, hn]
      exact this
    · have h1 : (n / 2 ^ (k + 1)) % 2 = 1 := hv.1 rfl
      have hn : 2 * (n / 2 ^ (k + 1) / 2) + 1 = n / 2 ^ (k + 1) := by omega
      simp only [generate, hm, hE]
      rw [range_double, ← List.range_succ, Nat.succ_eq_add_one, hn]
      exact this

theorem startM_spec {n : Nat} (h : n < 2 ^ 20) : ∃ k, k ≤ 20 ∧ startM n = 2 ^ k ∧ n < 2 ^ k := by
  unfold startM
  split
  · exact ⟨1, by decide, rfl, by assumption⟩
  split
  · exact ⟨2, by decide, rfl, by assumption⟩
  split
  · exact ⟨3, by decide, rfl, by assumption⟩
  split
  · exact ⟨4, by decide, rfl, by assumption⟩
  split
  · exact ⟨5, by decide, rfl, by assumption⟩
  split
  · exact ⟨6, by decide, rfl, by assumption⟩
  split
  · exact ⟨7, by decide, rfl, by assumption⟩
  split
  · exact ⟨8, by decide, rfl, by assumption⟩
  split
  · exact ⟨9, by decide, rfl, by assumption⟩
  split
  · exact ⟨10, by decide, rfl, by assumption⟩
  exact ⟨20, by decide, rfl, h⟩

/-- `make_index_sequence<N>` is `0, ..., N-1` exactly for `N < 2^20`; other `N` do not compile. -/
theorem c59_make_sequence (n : Nat) : makeSeq n = if n < 2 ^ 20 then some (List.range n) else none := by
  unfold makeSeq
  split
  · rename_i h
    obtain ⟨k, hk, hm, hn⟩ := startM_spec h
    rw [hm]
    have h0 : n / 2 ^ (k + 1) = 0 := Nat.div_eq_of_lt (Nat.lt_trans hn (Nat.pow_lt_pow_right (by decide) (by omega)))
    have := generate_eq n k 23 false (by
      constructor
      · intro hc; cases hc
      · intro hc
        rw [Nat.div_eq_of_lt hn] at hc
        cases hc) (by omega)
    rw [h0] at this
    exact this
  · rfl

theorem makeSeq_lt {n : Nat} (h : n < 2 ^ 20) : makeSeq n = some (List.range n) := by rw [c59_make_sequence, if_pos h]

/-! ### Sums -/

/-- Specification: the sum of the first `i` numbers. -/
def Spec.prefixSum (ns : List Int) (i : Nat) : Int := (ns.take i).sum

/-- What arithmetic in `T` makes of the exact value `v`: itself if `T` is signed, reduced modulo `2^bits` otherwise. -/
def Spec.Denotes (t : Ty) (r v : Int) : Prop := if t.signed then r = v else r = v % 2 ^ t.bits

theorem arith_eq {t : Ty} {v r : Int} (h : t.arith v = some r) : Spec.Denotes t r v := by
  unfold Ty.arith at h
  unfold Spec.Denotes
  cases hs : t.signed
  · rw [hs] at h
    simpa using h.symm
  · rw [hs] at h
    simp only [if_true] at h ⊢
    split at h
    · exact (Option.some.inj h).symm
    · cases h

theorem sumFold_denotes {t : Ty} {ns : List Int} {r : Int} (h : sumFold t ns = some r) : Spec.Denotes t r ns.sum := by
  induction ns generalizing r with
  | nil =>
    unfold sumFold at h
    rw [← Option.some.inj h]
    unfold Spec.Denotes
    split <;> simp
  | cons n ns ih =>
    unfold sumFold at h
    rw [Option.bind_eq_bind, Option.bind_eq_some_iff] at h
    obtain ⟨q, hq, h⟩ := h
    have h1 := ih hq
    have h2 := arith_eq h
    unfold Spec.Denotes at *
    rw [List.sum_cons]
    split
    · rename_i hs
      rw [if_pos hs] at h1 h2
      rw [h2, h1]
    · rename_i hs
      rw [if_neg hs] at h1 h2
      rw [h2, h1, Int.add_emod_emod]

/-- When it compiles: always for unsigned types, and for signed ones if every sum of final elements fits. -/
theorem sumFold_some {t : Ty} {ns : List Int} (h : t.signed = true → ∀ l, l <:+ ns → t.InRange l.sum) : ∃ r, sumFold t ns = some r := by
  induction ns with
  | nil => exact ⟨0, rfl⟩
  | cons n ns ih =>
    obtain ⟨r, hr⟩ := ih (fun hs l hl => h hs l (hl.trans (List.suffix_cons n ns)))
    unfold sumFold
    rw [hr]
    simp only [Option.bind_eq_bind, Option.bind_some]
    unfold Ty.arith
    cases hs : t.signed
    · exact ⟨_, rfl⟩
    · have h1 := sumFold_denotes hr
      unfold Spec.Denotes at h1
      rw [if_pos hs] at h1
      have h2 := h hs (n :: ns) List.suffix_rfl
      rw [List.sum_cons] at h2
      simp only [if_true]
      rw [h1, if_pos h2]
      exact ⟨_, rfl⟩

theorem sum_succ (l : List Int) : (l.map (· + 1)).sum = l.sum + l.length := by
  induction l with
  | nil => rfl
  | cons a l ih =>
    simp only [List.map_cons, List.sum_cons, List.length_cons]
    rw [ih]
    push_cast
    omega

theorem cast_denotes (t : Ty) (hb : 1 ≤ t.bits) {v : Int} (h : t.signed = true → t.InRange v) : Spec.Denotes t (t.cast v) v := by
  unfold Spec.Denotes Ty.cast
  cases hs : t.signed
  · simp
  · simp only [if_true]
    have h1 := h hs
    unfold Ty.InRange at h1
    rw [if_pos hs] at h1
    have hpp : (2 : Int) ^ t.bits = 2 * 2 ^ (t.bits - 1) := by
      obtain ⟨k, hk⟩ : ∃ k, t.bits = k + 1 := ⟨t.bits - 1, by omega⟩
      rw [hk, Int.pow_succ]
      show _ = 2 * 2 ^ k
      omega
    have hpn : ((2 ^ t.bits : Nat) : Int) = 2 * 2 ^ (t.bits - 1) := by rw [← hpp]; norm_cast
    apply Int.bmod_eq_of_le
    · rw [hpn]; omega
    · rw [hpn]; omega

theorem sumSize_denotes {t : Ty} (hb : 1 ≤ t.bits) {ns : List Int} (hl : ns.length < 2 ^ 20) (h0 : ∀ n ∈ ns, 0 ≤ n)
    (hr : t.signed = true → t.InRange ns.sum) : ∃ r, sumSize t ns.length ns = some r ∧ Spec.Denotes t r ns.sum := by
  unfold sumSize
  rw [makeSeq_lt hl]
  simp only [Option.bind_eq_bind, Option.bind_some, List.length_range, true_and]
  rw [if_pos (by simpa using h0), sum_succ]
  refine ⟨_, rfl, ?_⟩
  have e : ns.sum + (ns.length : Int) - (ns.length : Int) = ns.sum := by omega
  rw [e]
  exact cast_denotes t hb hr

theorem sum_pos_neg (ns : List Int) : (ns.map fun n => if n > 0 then n else 0).sum - (ns.map fun n => if n < 0 then -n else 0).sum = ns.sum := by
  induction ns with
  | nil => rfl
  | cons a l ih =>
    simp only [List.map_cons, List.sum_cons]
    rw [← ih]
    split <;> split <;> omega

theorem mapM_id_some {ns : List Int} {f : Int → Option Int} {g : Int → Int} (h : ∀ n ∈ ns, f n = some (g n)) :
    (ns.map f).mapM id = some (ns.map g) := by
  induction ns with
  | nil => rfl
  | cons a l ih =>
    rw [List.map_cons, List.mapM_cons, ih (fun n hn => h n (List.mem_cons_of_mem _ hn)), id, h a List.mem_cons_self]
    rfl

/-- `sum` without fold expressions: correct when the positive and the negative numbers each add up within range. -/
theorem sumNoFold_denotes {t : Ty} (hb : 1 ≤ t.bits) {ns : List Int} (hl : ns.length + 1 < 2 ^ 20)
    (hu : t.signed = false → ∀ n ∈ ns, 0 ≤ n)
    (hs : t.signed = true → t.InRange (ns.map fun n => if n > 0 then n else 0).sum ∧ t.InRange (ns.map fun n => if n < 0 then -n else 0).sum ∧
      t.InRange ns.sum ∧ ∀ n ∈ ns, t.InRange (-n)) :
    ∃ r, sumNoFold t ns = some r ∧ Spec.Denotes t r ns.sum := by
  have hlen : (ns ++ [0]).length = ns.length + 1 := by simp
  have hsum : (ns ++ [0]).sum = ns.sum := by simp
  unfold sumNoFold
  cases h : t.signed
  · simp only [Bool.false_eq_true, if_false]
    rw [← hlen, ← hsum]
    refine sumSize_denotes hb (by rw [hlen]; exact hl) ?_ (by rw [h]; intro hc; cases hc)
    intro n hn
    rcases List.mem_append.1 hn with hn | hn
    · exact hu h n hn
    · simp at hn; omega
  · simp only [if_true]
    obtain ⟨h1, h2, h3, h4⟩ := hs h
    unfold sumSigned
    have hneg : ((ns ++ [0]).map fun n => if n < 0 then t.arith (-n) else some 0).mapM id =
        some ((ns ++ [0]).map fun n => if n < 0 then -n else 0) := by
      apply mapM_id_some
      intro n hn
      split
      · unfold Ty.arith
        rw [if_pos h, if_pos]
        rcases List.mem_append.1 hn with hn | hn
        · exact h4 n hn
        · simp at hn; omega
      · rfl
    rw [hneg]
    simp only [Option.bind_eq_bind, Option.bind_some]
    have hp := sumSize_denotes hb (t := t) (ns := (ns ++ [0]).map fun n => if n > 0 then n else 0)
      (by simp only [List.length_map, hlen]; exact hl) (by
        intro n hn
        obtain ⟨a, _, rfl⟩ := List.mem_map.1 hn
        split <;> omega) (fun _ => by simpa using h1)
    have hq := sumSize_denotes hb (t := t) (ns := (ns ++ [0]).map fun n => if n < 0 then -n else 0)
      (by simp only [List.length_map, hlen]; exact hl) (by
        intro n hn
        obtain ⟨a, _, rfl⟩ := List.mem_map.1 hn
        split <;> omega) (fun _ => by simpa using h2)
    obtain ⟨p, hp1, hp2⟩ := hp
    obtain ⟨q, hq1, hq2⟩ := hq
    rw [List.length_map, hlen] at hp1 hq1
    rw [hp1, hq1]
    simp only [Option.bind_some]
    unfold Spec.Denotes at hp2 hq2 ⊢
    rw [if_pos h] at hp2 hq2
    have e : p - q = ns.sum := by rw [hp2, hq2, sum_pos_neg, hsum]
    refine ⟨ns.sum, ?_, by rw [if_pos h]⟩
    unfold Ty.arith
    rw [e, if_pos h, if_pos h3]

/-! ### Scans -/

theorem zipWith_prefix (ns : List Int) (i : Nat) :
    (List.zipWith (fun k n => if k < i then n else 0) (List.range ns.length) ns).sum = Spec.prefixSum ns i := by
  have gen : ∀ (l : List Int) (o : Nat), (List.zipWith (fun k n => if k < i then n else 0) (List.range' o l.length) l).sum =
      (l.take (i - o)).sum := by
    intro l
    induction l with
    | nil => intro o; simp
    | cons a l ih =>
      intro o
      rw [List.length_cons, List.range'_succ, List.zipWith_cons_cons, List.sum_cons, ih]
      split
      · rename_i h
        obtain ⟨d, hd⟩ : ∃ d, i - o = d + 1 := ⟨i - o - 1, by omega⟩
        rw [hd, List.take_succ_cons, List.sum_cons]
        congr 3
        omega
      · rename_i h
        have : i - o = 0 := by omega
        rw [this, show i - (o + 1) = 0 by omega]
        simp
  have := gen ns 0
  rw [← List.range_eq_range', Nat.sub_zero] at this
  exact this

/-- `sum` in either implementation: `sm` gives what the exact sum denotes whenever it compiles. -/
def Spec.GoodSum (t : Ty) (sm : Ty → List Int → Option Int) (ns : List Int) : Prop :=
  ∀ r, sm t ns = some r → Spec.Denotes t r ns.sum

/-- `sum<T, Ns...>` in both implementations is the exact sum, reduced modulo 2^bits if `T` is unsigned. The fold may fail to compile for
signed types although the sum fits, if a sum of final elements does not. -/
theorem c59_sum (t : Ty) (ns : List Int) :
    (∀ r, sumFold t ns = some r → Spec.Denotes t r ns.sum) ∧
    ((t.signed = true → ∀ l, l <:+ ns → t.InRange l.sum) → ∃ r, sumFold t ns = some r) ∧
    (1 ≤ t.bits → ns.length + 1 < 2 ^ 20 → (t.signed = false → ∀ n ∈ ns, 0 ≤ n) →
      (t.signed = true → t.InRange (ns.map fun n => if n > 0 then n else 0).sum ∧ t.InRange (ns.map fun n => if n < 0 then -n else 0).sum ∧
        t.InRange ns.sum ∧ ∀ n ∈ ns, t.InRange (-n)) → ∃ r, sumNoFold t ns = some r ∧ Spec.Denotes t r ns.sum) :=
  ⟨fun _ h => sumFold_denotes h, sumFold_some, fun hb hl hu hs => sumNoFold_denotes hb hl hu hs⟩

theorem partialSum_eq {sm : Ty → List Int → Option Int} {t : Ty} {i : Nat} {ns : List Int} {r : Int}
    (hg : ∀ l, Spec.GoodSum t sm l) (h : partialSum sm t i ns = some r) : i ≤ ns.length ∧ Spec.Denotes t r (Spec.prefixSum ns i) := by
  unfold partialSum at h
  rw [c59_make_sequence] at h
  split at h
  · simp only [Option.bind_eq_bind, Option.bind_some, List.length_range] at h
    split at h
    · rename_i hi
      refine ⟨hi, ?_⟩
      rw [← zipWith_prefix]
      exact hg _ r h
    · cases h
  · cases h

theorem mapM_some_iff {α β : Type} {f : α → Option β} {l : List α} {r : List β} (h : l.mapM f = some r) :
    r.length = l.length ∧ ∀ (k : Nat) (hk : k < l.length) (hr : k < r.length), f l[k] = some r[k] := by
  induction l generalizing r with
  | nil =>
    simp at h
    subst h
    simp
  | cons a l ih =>
    rw [List.mapM_cons] at h
    simp only [Option.bind_eq_bind, Option.bind_eq_some_iff] at h
    obtain ⟨b, hb, bs, hbs, h⟩ := h
    have h := Option.some.inj h
    subst h
    obtain ⟨h1, h2⟩ := ih hbs
    refine ⟨by simp [h1], ?_⟩
    intro k hk hr
    cases k with
    | zero => exact hb
    | succ k => exact h2 k (by simpa using hk) (by simpa using hr)

/-- Partial sums and exclusive scans, whenever they compile (with either `sum`). -/
theorem c59_exclusive {sm : Ty → List Int → Option Int} {t : Ty} (hg : ∀ l, Spec.GoodSum t sm l) (ns rs : List Int)
    (h : exclusiveScan sm t ns = some rs) :
    rs.length = ns.length ∧ ∀ (k : Nat) (hk : k < rs.length), Spec.Denotes t rs[k] (Spec.prefixSum ns k) := by
  unfold exclusiveScan at h
  rw [c59_make_sequence] at h
  split at h
  · simp only [Option.bind_eq_bind, Option.bind_some] at h
    obtain ⟨h1, h2⟩ := mapM_some_iff h
    rw [List.length_range] at h1
    refine ⟨h1, ?_⟩
    intro k hk
    have := h2 k (by rw [List.length_range, ← h1]; exact hk) hk
    rw [List.getElem_range] at this
    exact (partialSum_eq hg this).2
  · cases h

theorem zip_eq {op : Int → Int → Option Int} {ct : Ty} {as bs rs : List Int} (h : zip op ct as bs = some rs) :
    as.length = bs.length ∧ rs.length = as.length ∧
      ∀ (k : Nat) (ha : k < as.length) (hb : k < bs.length) (hr : k < rs.length), op as[k] bs[k] = some rs[k] := by
  induction as generalizing bs rs with
  | nil =>
    cases bs with
    | nil => simp [zip] at h; subst h; simp
    | cons b bs => simp [zip] at h
  | cons a as ih =>
    cases bs with
    | nil => simp [zip] at h
    | cons b bs =>
      unfold zip at h
      simp only [Option.bind_eq_bind, Option.bind_eq_some_iff] at h
      obtain ⟨a', ha, b', hb, r, hr, rs', hrs, h⟩ := h
      have h := Option.some.inj h
      subst h
      have ea : a' = a := by unfold Ty.conv at ha; split at ha <;> simp_all
      have eb : b' = b := by unfold Ty.conv at hb; split at hb <;> simp_all
      subst ea; subst eb
      obtain ⟨h1, h2, h3⟩ := ih hrs
      refine ⟨by simp [h1], by simp [h2], ?_⟩
      intro k hk1 hk2 hk3
      cases k with
      | zero => exact hr
      | succ k => exact h3 k (by simpa using hk1) (by simpa using hk2) (by simpa using hk3)

/-- `plus` and `minus` are elementwise; sequences of different length do not compile. -/
theorem c59_plus_minus (ct : Ty) (as bs rs : List Int) :
    (plus ct as bs = some rs → as.length = bs.length ∧ rs.length = as.length ∧
      ∀ (k : Nat) (ha : k < as.length) (hb : k < bs.length) (hr : k < rs.length), Spec.Denotes ct rs[k] (as[k] + bs[k])) ∧
    (minus ct as bs = some rs → as.length = bs.length ∧ rs.length = as.length ∧
      ∀ (k : Nat) (ha : k < as.length) (hb : k < bs.length) (hr : k < rs.length), Spec.Denotes ct rs[k] (as[k] - bs[k])) := by
  constructor
  · intro h
    obtain ⟨h1, h2, h3⟩ := zip_eq h
    exact ⟨h1, h2, fun k ha hb hr => arith_eq (h3 k ha hb hr)⟩
  · intro h
    obtain ⟨h1, h2, h3⟩ := zip_eq h
    exact ⟨h1, h2, fun k ha hb hr => arith_eq (h3 k ha hb hr)⟩

theorem prefixSum_succ (ns : List Int) (k : Nat) (hk : k < ns.length) : Spec.prefixSum ns (k + 1) = Spec.prefixSum ns k + ns[k] := by
  unfold Spec.prefixSum
  rw [← List.take_concat_get' ns k hk, List.sum_append, List.sum_singleton]

/-- Inclusive scans. -/
theorem c59_inclusive {sm : Ty → List Int → Option Int} {t : Ty} (hg : ∀ l, Spec.GoodSum t sm l) (ns rs : List Int)
    (h : inclusiveScan sm t ns = some rs) :
    rs.length = ns.length ∧ ∀ (k : Nat) (hk : k < rs.length), Spec.Denotes t rs[k] (Spec.prefixSum ns (k + 1)) := by
  unfold inclusiveScan at h
  rw [Option.bind_eq_bind, Option.bind_eq_some_iff] at h
  obtain ⟨ex, he, h⟩ := h
  obtain ⟨e1, e2⟩ := c59_exclusive hg ns ex he
  obtain ⟨p1, p2, p3⟩ := (c59_plus_minus t ex ns rs).1 h
  refine ⟨by omega, ?_⟩
  intro k hk
  have h1 := e2 k (by omega)
  have h2 := p3 k (by omega) (by omega) hk
  rw [prefixSum_succ ns k (by omega)]
  unfold Spec.Denotes at *
  split
  · rename_i hs
    rw [if_pos hs] at h1 h2
    rw [h2, h1]
  · rename_i hs
    rw [if_neg hs] at h1 h2
    rw [h2, h1, Int.emod_add_emod]

/-- The scans compile for unsigned types. -/
theorem c59_compiles (t : Ty) (hu : t.signed = false) (ns : List Int) (hl : ns.length < 2 ^ 20) (hr : ∀ n ∈ ns, t.InRange n) :
    (∃ rs, exclusiveScan sumFold t ns = some rs) ∧ ∃ rs, inclusiveScan sumFold t ns = some rs := by
  have hp : ∀ i ≤ ns.length, ∃ r, partialSum sumFold t i ns = some r ∧ t.InRange r := by
    intro i hi
    unfold partialSum
    rw [makeSeq_lt hl]
    simp only [Option.bind_eq_bind, Option.bind_some, List.length_range]
    rw [if_pos hi]
    obtain ⟨r, h⟩ := sumFold_some (t := t) (ns := List.zipWith (fun k n => if k < i then n else 0) (List.range ns.length) ns)
      (by rw [hu]; intro hc; cases hc)
    refine ⟨r, h, ?_⟩
    have := sumFold_denotes h
    unfold Spec.Denotes at this
    rw [if_neg (by rw [hu]; decide)] at this
    unfold Ty.InRange
    rw [if_neg (by rw [hu]; decide), this]
    have h2 : (0 : Int) < 2 ^ t.bits := by
      have := Nat.two_pow_pos t.bits
      have e : ((2 ^ t.bits : Nat) : Int) = 2 ^ t.bits := by norm_cast
      omega
    exact ⟨Int.emod_nonneg _ (by omega), Int.emod_lt_of_pos _ h2⟩
  have hm : ∀ l : List Nat, (∀ i ∈ l, i ≤ ns.length) → ∃ rs, l.mapM (fun i => partialSum sumFold t i ns) = some rs ∧
      rs.length = l.length ∧ ∀ r ∈ rs, t.InRange r := by
    intro l
    induction l with
    | nil => intro _; exact ⟨[], by simp, rfl, by simp⟩
    | cons a l ih =>
      intro hall
      obtain ⟨rs, h1, h2, h3⟩ := ih (fun i hi => hall i (List.mem_cons_of_mem _ hi))
      obtain ⟨r, h4, h5⟩ := hp a (hall a List.mem_cons_self)
      refine ⟨r :: rs, ?_, by simp [h2], ?_⟩
      · rw [List.mapM_cons, h4, h1]; rfl
      · intro x hx
        rcases List.mem_cons.1 hx with rfl | hx
        · exact h5
        · exact h3 x hx
  obtain ⟨rs, h1, h2, h3⟩ := hm (List.range ns.length) (fun i hi => Nat.le_of_lt (List.mem_range.1 hi))
  have he : exclusiveScan sumFold t ns = some rs := by
    unfold exclusiveScan
    rw [makeSeq_lt hl]
    exact h1
  refine ⟨⟨rs, he⟩, ?_⟩
  have hz : ∀ (as bs : List Int), as.length = bs.length → (∀ a ∈ as, t.InRange a) → (∀ b ∈ bs, t.InRange b) →
      ∃ r, plus t as bs = some r := by
    intro as
    induction as with
    | nil =>
      intro bs hb _ _
      cases bs with
      | nil => exact ⟨[], rfl⟩
      | cons b bs => simp at hb
    | cons a as ih =>
      intro bs hb ha hb2
      cases bs with
      | nil => simp at hb
      | cons b bs =>
        obtain ⟨r, hr⟩ := ih bs (by simpa using hb) (fun x hx => ha x (List.mem_cons_of_mem _ hx)) (fun x hx => hb2 x (List.mem_cons_of_mem _ hx))
        unfold plus zip
        have c1 : t.conv a = some a := if_pos (ha a List.mem_cons_self)
        have c2 : t.conv b = some b := if_pos (hb2 b List.mem_cons_self)
        unfold plus at hr
        have c3 : t.arith (a + b) = some ((a + b) % 2 ^ t.bits) := by unfold Ty.arith; rw [hu]; rfl
        rw [c1, c2]
        simp only [Option.bind_eq_bind, Option.bind_some]
        rw [c3, hr]
        exact ⟨_, rfl⟩
  obtain ⟨r, hr⟩ := hz rs ns (by rw [h2, List.length_range]) h3 hr
  refine ⟨r, ?_⟩
  unfold inclusiveScan
  rw [he]
  exact hr

/-! ### Selection -/

theorem filter_zip {α : Type} (l : List α) (i : Nat) :
    ((List.range l.length).zip l).filter (fun x => x.1 == i) = (l[i]?).toList.map fun a => (i, a) := by
  have gen : ∀ (l : List α) (o : Nat), ((List.range' o l.length).zip l).filter (fun x => x.1 == i) =
      if o ≤ i then (l[i - o]?).toList.map fun a => (i, a) else [] := by
    intro l
    induction l with
    | nil => intro o; simp
    | cons a l ih =>
      intro o
      rw [List.length_cons, List.range'_succ, List.zip_cons_cons, List.filter_cons, ih]
      by_cases h : o = i
      · subst h
        rw [if_neg (by omega : ¬ o + 1 ≤ o)]
        simp
      · by_cases h2 : o ≤ i
        · obtain ⟨d, hd⟩ : ∃ d, i - o = d + 1 := ⟨i - o - 1, by omega⟩
          have h3 : i - (o + 1) = d := by omega
          simp only [beq_iff_eq, h, if_false, h2, if_true, hd, h3, List.getElem?_cons_succ]
          rw [if_pos (by omega)]
        · simp only [beq_iff_eq, h, if_false, h2]
          rw [if_neg (by omega)]
  have := gen l 0
  rw [← List.range_eq_range', if_pos (Nat.zero_le _), Nat.sub_zero] at this
  exact this

/-- `at_index`/`select` is the element at the position, and does not compile outside the sequence. -/
theorem c59_select {α : Type} (i : Nat) (l : List α) (hl : l.length < 2 ^ 20) : atIndex i l = l[i]? := by
  unfold atIndex
  rw [makeSeq_lt hl]
  simp only [Option.bind_eq_bind, Option.bind_some]
  rw [filter_zip]
  cases l[i]? <;> rfl

/-- `map<S, M>` is the composition of the two sequences. -/
theorem c59_map (is : List Nat) (m : List Int) (hm : m.length < 2 ^ 20) : map is m = is.mapM fun i => m[i]? := by
  unfold map select
  congr 1
  funext i
  exact c59_select i m hm

/-- `is_all` in both implementations. -/
theorem c59_is_all (bs : List Bool) : isAllFold bs = bs.all id ∧ isAllSame bs = bs.all id := by
  constructor
  · induction bs with
    | nil => rfl
    | cons b bs ih => rw [isAllFold, ih]; rfl
  · unfold isAllSame
    induction bs with
    | nil => rfl
    | cons b bs ih =>
      rw [List.all_cons, ← ih]
      cases b
      · simp
      · simp

/-! ### Examples -/

def size_t : Ty := ⟨false, 64⟩
def int : Ty := ⟨true, 32⟩

example : makeSeq 11 = some [0, 1, 2, 3, 4, 5, 6, 7, 8, 9, 10] := by decide
example : inclusiveScan sumFold int [3, -1, 4] = some [3, 2, 6] := by decide
example : exclusiveScan sumFold size_t [3, 1, 4] = some [0, 3, 4] := by decide
example : exclusiveScan sumNoFold int [3, -1, 4] = some [0, 3, 2] := by decide
example : minus size_t [1] [2] = some [2 ^ 64 - 1] := by decide
example : map [2, 0, 2] [5, 6, 7] = some [7, 5, 7] := by decide
example : Spec.GoodSum int sumFold [1, 2] := fun _ h => sumFold_denotes h
example : sumFold int [-1, 2 ^ 31 - 1, 1] = none := by decide
example : ∀ l, Spec.GoodSum int sumFold l := fun _ _ h => sumFold_denotes h

end Nanostl.Seq
