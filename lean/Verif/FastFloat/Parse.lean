import Verif.FastFloat.Digits

/-!
`parse_number_string`: what it reads from any text.
-/

namespace Nanostl.FastFloat
open Nanostl.Float
open Nanostl.Str (Byte digitsValue)
open Nanostl.Ryu (w64 sub64 chk IsDigit digitsValue_cons digitsValue_snoc digitsValue_lt sigLen sigLen_bounds sigLen_append_pos sigLen_append_zero sigLen_zero_iff
  chk_pos some_bind drop_get)

/-! ### Single characters -/

theorem at1_spec {s r : List Byte} {p : Nat} (hp : p ≤ s.length) (hs : s.drop p = r) (c : Byte) : at1 s p c = some (decide (r.head? = some c)) := by
  unfold at1
  cases r with
  | nil =>
    have : p = s.length := by
      have := congrArg List.length hs
      rw [List.length_drop] at this; simp at this; omega
    rw [if_neg (by simpa using this)]; rfl
  | cons d r =>
    obtain ⟨h1, h2, -⟩ := drop_get (r := r) hs
    rw [if_pos (by omega), h2, some_bind]
    show some (d == c) = _
    simp only [List.head?_cons, Option.some.injEq]
    rfl

theorem atDigit_spec {s r : List Byte} {p : Nat} (hp : p ≤ s.length) (hs : s.drop p = r) : ∃ d, atDigit s p = some d ∧ (d = true ↔ ¬Stops r) := by
  unfold atDigit
  cases r with
  | nil =>
    have : p = s.length := by
      have := congrArg List.length hs
      rw [List.length_drop] at this; simp at this; omega
    rw [if_neg (by simpa using this)]; exact ⟨false, rfl, by simp [Stops]⟩
  | cons d r =>
    obtain ⟨h1, h2, -⟩ := drop_get (r := r) hs
    rw [if_pos (by omega), h2, some_bind]
    refine ⟨_, rfl, ?_⟩
    rw [isInteger_iff]
    simp [Stops]

/-! ### The exponent -/

/-- The value of the digits of an exponent as the loop computes it: numbers from `2^28` on may stay too small. -/
def Sat (v e : Nat) : Prop := e = v ∨ (2 ^ 28 ≤ e ∧ e ≤ v)

/-- One digit of the exponent. -/
def satStep (e : Nat) (c : Byte) : Nat := if e < 0x10000000 then 10 * e + (c.toNat - 48) else e

theorem satStep_spec : ∀ (a : List Byte) (v e : Nat), Sat v e → Sat (v * 10 ^ a.length + digitsValue a) (a.foldl satStep e)
  | [], v, e, h => by simpa [digitsValue] using h
  | c :: a, v, e, h => by
    have h' : Sat (v * 10 + (c.toNat - 48)) (satStep e c) := by
      unfold Sat satStep at *
      split <;> omega
    have := satStep_spec a _ _ h'
    rw [List.foldl_cons, List.length_cons, digitsValue_cons, Nat.pow_succ]
    have e : (v * 10 + (c.toNat - 48)) * 10 ^ a.length + digitsValue a = v * (10 ^ a.length * 10) + ((c.toNat - 48) * 10 ^ a.length + digitsValue a) := by ring
    rw [← e]; exact this

theorem expLoop_spec {s : List Byte} : ∀ (f p e : Nat) (a r : List Byte), s.drop p = a ++ r → p ≤ s.length → (∀ c ∈ a, IsDigit c) → Stops r → a.length < f →
    expLoop s f p e = some (p + a.length, a.foldl satStep e)
  | 0, _, _, _, _, _, _, _, _, hf => by omega
  | f + 1, p, e, [], r, hs, hp, ha, hr, hf => by
    rw [expLoop]
    cases r with
    | nil =>
      rw [if_neg]; · rfl
      have := congrArg List.length hs
      rw [List.length_drop] at this; simp at this; simp; omega
    | cons c r =>
      obtain ⟨h1, h2, -⟩ := drop_get (r := r) hs
      rw [if_pos (by omega), h2, some_bind, if_neg]
      · rfl
      · rw [isInteger_iff]; exact hr c rfl
  | f + 1, p, e, c :: a, r, hs, hp, ha, hr, hf => by
    obtain ⟨h1, h2, h3⟩ := drop_get (r := a ++ r) hs
    rw [expLoop, if_pos (by omega), h2, some_bind, if_pos (isInteger_iff.2 (ha c List.mem_cons_self)),
      expLoop_spec f (p + 1) _ a r h3 (by omega) (fun d hd => ha d (List.mem_cons_of_mem _ hd)) hr (by rw [List.length_cons] at hf; omega), List.length_cons, List.foldl_cons]
    congr 2
    omega

/-- The letter, the sign and the digits of an exponent. -/
structure IsExp (x : List Byte) (neg : Bool) (ds : List Byte) : Prop where
  text : ∃ e sg, x = e :: (sg ++ ds) ∧ (e = 101 ∨ e = 69) ∧ ((neg = false ∧ (sg = [] ∨ sg = [43])) ∨ (neg = true ∧ sg = [45]))
  digits : ∀ c ∈ ds, IsDigit c
  ne : ds ≠ []

theorem cons_stops {c : Byte} {r : List Byte} : Stops (c :: r) ↔ ¬IsDigit c := by simp [Stops]

theorem not_stops {r : List Byte} : ¬Stops r ↔ ∃ ds rest, r = ds ++ rest ∧ (∀ c ∈ ds, IsDigit c) ∧ ds ≠ [] ∧ Stops rest := by
  obtain ⟨a, t, h1, h2, h3⟩ := run_exists r
  constructor
  · intro h
    refine ⟨a, t, h1, h2, ?_, h3⟩
    rintro rfl
    exact h (by rw [h1]; exact h3)
  · rintro ⟨ds, rest, rfl, hd, hne, -⟩
    cases ds with
    | nil => exact absurd rfl hne
    | cons c ds => rw [List.cons_append, cons_stops]; exact fun h => h (hd c List.mem_cons_self)

/-- The text goes on with an exponent or does not. -/
theorem exp_cases (r : List Byte) : (∃ x neg ds rest, r = x ++ rest ∧ IsExp x neg ds ∧ Stops rest) ∨ (∀ x neg ds rest, r = x ++ rest → ¬IsExp x neg ds) := by
  by_cases h : ∃ x neg ds rest, r = x ++ rest ∧ IsExp x neg ds
  · left
    obtain ⟨x, neg, ds, rest, rfl, ⟨e, sg, rfl, he, hsg⟩, hd, hne⟩ := h
    obtain ⟨ds', rest', h1, h2, h3⟩ := run_exists rest
    refine ⟨e :: (sg ++ (ds ++ ds')), neg, ds ++ ds', rest', by rw [h1]; simp, ⟨⟨e, sg, rfl, he, hsg⟩, ?_, by simp [hne]⟩, h3⟩
    intro c hc
    rcases List.mem_append.1 hc with hc | hc
    · exact hd c hc
    · exact h2 c hc
  · right
    intro x neg ds rest hr hx
    exact h ⟨x, neg, ds, rest, hr, hx⟩

/-- An exponent is read. -/
theorem expPart_some {s x rest ds : List Byte} {o : Options} {p : Nat} {neg : Bool} (hp : p ≤ s.length) (hs : s.drop p = x ++ rest) (hx : IsExp x neg ds) (hr : Stops rest)
    (ho : o.scientific = true) : expPart s o p = some (some (p + x.length, if neg then -((ds.foldl satStep 0 : Nat) : Int) else (ds.foldl satStep 0 : Nat))) := by
  obtain ⟨⟨e, sg, rfl, he, hsg⟩, hd, hne⟩ := hx
  have hp1 : p < s.length := (drop_get (r := sg ++ ds ++ rest) hs).1
  have hs1 : s.drop (p + 1) = sg ++ (ds ++ rest) := by rw [(drop_get (r := sg ++ ds ++ rest) hs).2.2, List.append_assoc]
  unfold expPart
  rw [if_pos ho, at1_spec hp hs, some_bind, at1_spec hp hs, some_bind]
  simp only [List.cons_append, List.head?_cons, Option.some.injEq]
  rw [Nanostl.FastFloat.at1_spec (by omega) hs1, some_bind, at1_spec (by omega) hs1, some_bind]
  have hE : (decide (e = 101) || decide (e = 69)) = true := by simpa using he
  rw [hE]
  obtain ⟨c, ds', rfl⟩ := List.exists_cons_of_ne_nil hne
  have hc := hd c List.mem_cons_self
  have hm : decide ((sg ++ (c :: ds' ++ rest)).head? = some 45) = neg := by
    rcases hsg with ⟨rfl, rfl | rfl⟩ | ⟨rfl, rfl⟩
    · simp only [List.nil_append, List.cons_append, List.head?_cons, Option.some.injEq, decide_eq_false_iff_not]
      rintro rfl; exact absurd hc (by decide)
    · rfl
    · rfl
  have hq : (if (decide ((sg ++ (c :: ds' ++ rest)).head? = some 45) || decide ((sg ++ (c :: ds' ++ rest)).head? = some 43)) = true then p + 1 + 1 else p + 1) =
      p + 1 + sg.length := by
    rcases hsg with ⟨rfl, rfl | rfl⟩ | ⟨rfl, rfl⟩
    · rw [hm, if_neg]
      · rfl
      · simp only [List.nil_append, List.cons_append, List.head?_cons, Option.some.injEq, Bool.false_or, decide_eq_true_iff]
        rintro rfl; exact absurd hc (by decide)
    · rfl
    · rfl
  have hs2 : s.drop (p + 1 + sg.length) = c :: ds' ++ rest := by
    rw [← List.drop_drop, hs1, List.drop_left]
  have hl : p + 1 + sg.length < s.length := (drop_get (r := ds' ++ rest) hs2).1
  have hlen := congrArg List.length hs2
  rw [List.length_drop, List.length_append] at hlen
  obtain ⟨d, hd1, hd2⟩ := atDigit_spec hl.le hs2
  have hdt : d = true := hd2.2 (not_stops.2 ⟨_, _, rfl, hd, hne, hr⟩)
  have h1 := expLoop_spec (s.length + 1) (p + 1 + sg.length) 0 (c :: ds') rest hs2 hl.le hd hr (by omega)
  rw [hm] at hq
  rw [hm]
  rw [show (pure true : Option Bool) = some true from rfl, some_bind]
  rw [if_pos rfl, hq, hd1, some_bind, hdt, if_pos rfl, h1, some_bind]
  show some (some _) = _
  congr 3
  simp only [List.length_cons, List.length_append]; omega

/-- No exponent is read. -/
theorem expPart_none {s r : List Byte} {o : Options} {p : Nat} (hp : p ≤ s.length) (hs : s.drop p = r) (hx : ∀ x neg ds rest, r = x ++ rest → ¬IsExp x neg ds)
    (ho : o.scientific = true) : expPart s o p = some (if o.fixed then some (p, 0) else none) := by
  unfold expPart
  rw [if_pos ho, at1_spec hp hs, some_bind, at1_spec hp hs, some_bind]
  cases r with
  | nil =>
    show (if (o.scientific && !o.fixed) = true then _ else _) = _
    rw [ho]
    cases o.fixed <;> rfl
  | cons e r =>
    simp only [List.head?_cons, Option.some.injEq]
    by_cases he : e = 101 ∨ e = 69
    · have hE : (decide (e = 101) || decide (e = 69)) = true := by simpa using he
      rw [hE]
      obtain ⟨hp1, -, hs1⟩ := drop_get (r := r) hs
      rw [at1_spec (by omega) hs1, some_bind, at1_spec (by omega) hs1, some_bind]
      rw [show (pure true : Option Bool) = some true from rfl, some_bind]
      rw [if_pos rfl]
      have key : ∃ q, (if (decide (r.head? = some 45) || decide (r.head? = some 43)) = true then p + 1 + 1 else p + 1) = q ∧ q ≤ s.length ∧ Stops (s.drop q) := by
        cases r with
        | nil => exact ⟨p + 1, rfl, by omega, by rw [hs1]; simp [Stops]⟩
        | cons c r =>
          simp only [List.head?_cons, Option.some.injEq]
          obtain ⟨hp2, -, hs2⟩ := drop_get (r := r) hs1
          by_cases hc : c = 45 ∨ c = 43
          · refine ⟨p + 1 + 1, by rw [if_pos (by simpa using hc)], by omega, ?_⟩
            rw [hs2]
            by_contra hst
            obtain ⟨ds, rest, rfl, hd, hne, -⟩ := not_stops.1 hst
            refine hx (e :: ([c] ++ ds)) (decide (c = 45)) ds rest (by simp) ⟨⟨e, [c], rfl, he, ?_⟩, hd, hne⟩
            rcases hc with rfl | rfl
            · exact Or.inr ⟨rfl, rfl⟩
            · exact Or.inl ⟨rfl, Or.inr rfl⟩
          · refine ⟨p + 1, by rw [if_neg (by simpa using hc)], by omega, ?_⟩
            rw [hs1]
            by_contra hst
            obtain ⟨ds, rest, hr, hd, hne, -⟩ := not_stops.1 hst
            exact hx (e :: ([] ++ ds)) false ds rest (by rw [hr]; simp) ⟨⟨e, [], rfl, he, Or.inl ⟨rfl, Or.inl rfl⟩⟩, hd, hne⟩
      obtain ⟨q, hq, hql, hqs⟩ := key
      obtain ⟨d, hd1, hd2⟩ := atDigit_spec hql rfl
      have hdf : d = false := by
        cases d with
        | false => rfl
        | true => exact absurd hqs (hd2.1 rfl)
      rw [hq, hd1, some_bind, hdf]
      cases o.fixed <;> rfl
    · have hE : (decide (e = 101) || decide (e = 69)) = false := by simpa using he
      rw [hE]
      show (if (o.scientific && !o.fixed) = true then _ else _) = _
      rw [ho]
      cases o.fixed <;> rfl

theorem expPart_off {s : List Byte} {o : Options} {p : Nat} (ho : o.scientific = false) : expPart s o p = some (some (p, 0)) := by
  unfold expPart
  rw [if_neg (by rw [ho]; decide)]
  show (if (o.scientific && !o.fixed) = true then _ else _) = _
  rw [ho]; rfl

/-! ### Leading zeros -/

theorem zeroLoop_skip {s : List Byte} {dp : Byte} : ∀ (l t : List Byte) (f p : Nat) (n : Int), s.drop p = l ++ t → (∀ c ∈ l, c = 48 ∨ c = dp) →
    zeroLoop s dp (f + l.length) p n = zeroLoop s dp f (p + l.length) (n - l.count 48)
  | [], t, f, p, n, hs, hl => by simp
  | c :: l, t, f, p, n, hs, hl => by
    obtain ⟨h1, h2, h3⟩ := drop_get (r := l ++ t) hs
    rw [List.length_cons, ← Nat.add_assoc, zeroLoop, if_pos (by omega), h2, some_bind, if_pos (hl c List.mem_cons_self),
      zeroLoop_skip l t f (p + 1) _ h3 fun d hd => hl d (List.mem_cons_of_mem _ hd), Nat.add_right_comm p 1, List.count_cons]
    congr 1
    by_cases hc : c = 48
    · rw [if_pos hc, if_pos (by simpa using hc)]; push_cast; ring
    · rw [if_neg hc, if_neg (by simpa using hc)]; simp

theorem zeroLoop_le {s : List Byte} {dp : Byte} : ∀ (f p : Nat) (n : Int), p ≤ s.length → s.length - p < f → ∃ m, zeroLoop s dp f p n = some m ∧ m ≤ n
  | 0, _, _, _, hf => by omega
  | f + 1, p, n, hp, hf => by
    rw [zeroLoop]
    by_cases h : p ≠ s.length
    · have hlt : p < s.length := by omega
      rw [if_pos h, List.getElem?_eq_getElem hlt, some_bind]
      by_cases hc : s[p] = 48 ∨ s[p] = dp
      · rw [if_pos hc]
        obtain ⟨m, h1, h2⟩ := zeroLoop_le (s := s) (dp := dp) f (p + 1) (if s[p] = 48 then n - 1 else n) (by omega) (by omega)
        refine ⟨m, h1, ?_⟩
        split at h2 <;> omega
      · rw [if_neg hc]; exact ⟨n, rfl, le_refl _⟩
    · rw [if_neg h]; exact ⟨n, rfl, le_refl _⟩

theorem zeroLoop_stop {s t : List Byte} {dp c : Byte} {f p : Nat} {n : Int} (hs : s.drop p = c :: t) (hc : ¬(c = 48 ∨ c = dp)) : zeroLoop s dp (f + 1) p n = some n := by
  obtain ⟨h1, h2, -⟩ := drop_get (r := t) hs
  rw [zeroLoop, if_pos (by omega), h2, some_bind, if_neg hc]; rfl

/-- The optional point with the digits after it. -/
def FracText (dp : Byte) (f b : List Byte) : Prop := (f = [] ∧ b = []) ∨ f = dp :: b

theorem zeros_cases (l : List Byte) : ∃ z d, l = z ++ d ∧ (∀ c ∈ z, c = 48) ∧ sigLen l = d.length ∧ ∀ c ∈ d.head?, c ≠ 48 := by
  refine ⟨l.takeWhile (fun c => c == 48), l.dropWhile (fun c => c == 48), (List.takeWhile_append_dropWhile).symm, ?_, rfl, ?_⟩
  · intro c hc
    have := List.all_eq_true.1 (List.all_takeWhile (p := fun c : Byte => c == 48) (l := l)) c hc
    simpa using this
  · intro c hc
    have := List.head?_dropWhile_not (fun c : Byte => c == 48) l
    rw [Option.mem_def] at hc
    rw [hc] at this
    simpa using this

theorem count_zeros {z : List Byte} (h : ∀ c ∈ z, c = 48) : z.count 48 = z.length := List.count_eq_length.2 fun c hc => (h c hc).symm

/-- What is left of the count of digits exceeds nineteen just if there are more than nineteen significant digits. -/
theorem zeroLoop_spec {s a f b r : List Byte} {dp : Byte} {p : Nat} (hp : p ≤ s.length) (hs : s.drop p = a ++ (f ++ r)) (hf : FracText dp f b)
    (hd : ∀ c ∈ a ++ b, IsDigit c) (hdp : ¬IsDigit dp) :
    ∃ m, zeroLoop s dp (s.length + 1) p ((a ++ b).length : Nat) = some m ∧ (m > 19 ↔ 19 < sigLen (a ++ b)) := by
  have hlen := congrArg List.length hs
  rw [List.length_drop, List.length_append, List.length_append] at hlen
  have hdz : dp ≠ 48 := by rintro rfl; exact hdp (by decide)
  obtain ⟨z, d, hz1, hz2, hz3, hz4⟩ := zeros_cases (a ++ b)
  have hla : (a ++ b).length = z.length + d.length := by rw [hz1, List.length_append]
  -- the zeros of the text
  have key : ∃ l t, a ++ (f ++ r) = l ++ t ∧ (∀ c ∈ l, c = 48 ∨ c = dp) ∧ l.count 48 = z.length ∧ (d ≠ [] → ∃ c t', t = c :: t' ∧ ¬(c = 48 ∨ c = dp)) := by
    have hdh : ∀ c ∈ d.head?, ¬(c = 48 ∨ c = dp) := by
      rintro c hc (h | rfl)
      · exact hz4 c hc h
      · exact hdp (hd c (by rw [hz1]; exact List.mem_append_right _ (List.mem_of_mem_head? hc)))
    rcases List.append_eq_append_iff.1 hz1 with ⟨x, hx, hbx⟩ | ⟨x, hx, hdx⟩
    · -- zeros go on after the integer part
      rcases hf with ⟨rfl, rfl⟩ | rfl
      · have : x = [] ∧ d = [] := by simpa using hbx.symm
        refine ⟨a, r, by simp, ?_, ?_, fun h => absurd this.2 h⟩
        · intro c hc; left; exact hz2 c (by rw [hx]; exact List.mem_append_left _ hc)
        · rw [this.1, List.append_nil] at hx; rw [hx]; exact count_zeros (by rw [← hx]; exact hz2)
      · refine ⟨a ++ dp :: x, d ++ r, by rw [hbx]; simp, ?_, ?_, ?_⟩
        · intro c hc
          rcases List.mem_append.1 hc with hc | hc
          · left; exact hz2 c (by rw [hx]; exact List.mem_append_left _ hc)
          · rcases List.mem_cons.1 hc with hc | hc
            · right; exact hc
            · left; exact hz2 c (by rw [hx]; exact List.mem_append_right _ hc)
        · rw [List.count_append, List.count_cons_of_ne hdz, count_zeros (fun c hc => hz2 c (by rw [hx]; exact List.mem_append_left _ hc)),
            count_zeros (fun c hc => hz2 c (by rw [hx]; exact List.mem_append_right _ hc)), hx, List.length_append]
        · intro hne
          obtain ⟨c, d', rfl⟩ := List.exists_cons_of_ne_nil hne
          exact ⟨c, _, rfl, hdh c rfl⟩
    · cases x with
      | nil =>
        rw [List.append_nil] at hx
        rw [List.nil_append] at hdx
        rcases hf with ⟨rfl, rfl⟩ | rfl
        · refine ⟨a, r, by simp, ?_, ?_, fun h => absurd hdx h⟩
          · intro c hc; left; exact hz2 c (by rw [← hx]; exact hc)
          · rw [hx]; exact count_zeros hz2
        · refine ⟨a ++ [dp], b ++ r, by simp, ?_, ?_, ?_⟩
          · intro c hc
            rcases List.mem_append.1 hc with hc | hc
            · left; exact hz2 c (by rw [← hx]; exact hc)
            · right; simpa using hc
          · rw [List.count_append, List.count_cons_of_ne hdz, hx, count_zeros hz2]; simp
          · intro hne
            obtain ⟨c, d', hcd⟩ := List.exists_cons_of_ne_nil hne
            exact ⟨c, d' ++ r, by rw [← hdx, hcd]; rfl, hdh c (by rw [hcd]; rfl)⟩
      | cons y x =>
        refine ⟨z, y :: x ++ (f ++ r), by rw [hx]; simp, fun c hc => Or.inl (hz2 c hc), count_zeros hz2, fun _ => ⟨y, _, rfl, hdh y (by rw [hdx]; rfl)⟩⟩
  obtain ⟨l, t, h1, h2, h3, h4⟩ := key
  have hll := congrArg List.length h1
  rw [List.length_append, List.length_append, List.length_append] at hll
  have hfu : s.length + 1 = (s.length - l.length + 1) + l.length := by omega
  rw [hfu, zeroLoop_skip l t _ p _ (by rw [hs, h1]) h2, h3, hla, hz3]
  have hst : s.drop (p + l.length) = t := by rw [← List.drop_drop, hs, h1, List.drop_left]
  by_cases hdn : d = []
  · obtain ⟨m, q1, q2⟩ := zeroLoop_le (s := s) (dp := dp) (s.length - l.length + 1) (p + l.length) (((z.length + d.length : Nat) : Int) - z.length) (by omega) (by omega)
    refine ⟨m, q1, ?_⟩
    rw [hdn] at q2 ⊢
    simp at q2 ⊢
    omega
  · obtain ⟨c, t', rfl, hc⟩ := h4 hdn
    refine ⟨_, zeroLoop_stop hst hc, ?_⟩
    push_cast; omega

/-! ### Nineteen digits -/

theorem nineteenLoop_spec {s : List Byte} : ∀ (a r pre : List Byte) (f p : Nat), s.drop p = a ++ r → (∀ c ∈ pre ++ a, IsDigit c) → digitsValue pre < 10 ^ 19 → a.length < f →
    ∃ a1 a2, a = a1 ++ a2 ∧ nineteenLoop s (p + a.length) f p (digitsValue pre) = some (p + a1.length, digitsValue (pre ++ a1)) ∧
      (digitsValue (pre ++ a1) < 10 ^ 18 → a2 = []) ∧ digitsValue (pre ++ a1) < 10 ^ 19
  | _, _, _, 0, _, _, _, _, hf => by omega
  | [], r, pre, f + 1, p, hs, hd, hp, hf => by
    refine ⟨[], [], rfl, ?_, fun _ => rfl, by simpa using hp⟩
    rw [nineteenLoop, if_neg (by simp)]
    simp
  | c :: a, r, pre, f + 1, p, hs, hd, hp, hf => by
    rw [nineteenLoop]
    by_cases h : digitsValue pre < 1000000000000000000
    · obtain ⟨h1, h2, h3⟩ := drop_get (r := a ++ r) hs
      have hc : IsDigit c := hd c (by simp)
      unfold IsDigit at hc
      rw [if_pos ⟨h, by simp⟩, h2, some_bind]
      have hv : w64 (w64 (digitsValue pre * 10) + (c.toNat - 48)) = digitsValue (pre ++ [c]) := by
        rw [digitsValue_snoc]; unfold w64; omega
      obtain ⟨a1, a2, q1, q2, q3, q4⟩ := nineteenLoop_spec a r (pre ++ [c]) f (p + 1) h3 (by simpa using hd) (by rw [digitsValue_snoc]; omega)
        (by rw [List.length_cons] at hf; omega)
      refine ⟨c :: a1, a2, by rw [q1]; rfl, ?_, by simpa using q3, by simpa using q4⟩
      rw [hv, List.length_cons, List.length_cons, show p + (a.length + 1) = p + 1 + a.length by omega, q2]
      congr 2
      · omega
      · simp
    · rw [if_neg (by omega)]
      refine ⟨[], c :: a, rfl, by simp, ?_, by simpa using hp⟩
      intro hlt
      rw [List.append_nil] at hlt
      omega

/-- The digits of a valid number. -/
structure Reads (s : List Byte) (pns : PNS) (a b : List Byte) (k : Int) : Prop where
  digits : ∀ c ∈ a ++ b, IsDigit c
  int : ∃ r, s.drop pns.integer.1 = a ++ r
  intLen : pns.integer.2 = a.length
  intLe : pns.integer.1 ≤ s.length
  frac : (pns.fraction = none ∧ b = []) ∨ ∃ p r, pns.fraction = some (p, b.length) ∧ s.drop p = b ++ r ∧ p ≤ s.length
  few : sigLen (a ++ b) ≤ 19 → pns.mantissa = digitsValue (a ++ b) ∧ pns.exponent = k ∧ pns.tooManyDigits = false
  many : 19 < sigLen (a ++ b) → pns.tooManyDigits = true ∧
    ∃ d1 d2, a ++ b = d1 ++ d2 ∧ pns.mantissa = digitsValue d1 ∧ sigLen d1 = 19 ∧ pns.exponent = k + d2.length

/-- The second reading. -/
theorem reread_spec {s a f b r : List Byte} {dp : Byte} {p : Nat} (hp : p ≤ s.length) (hs : s.drop p = a ++ (f ++ r)) (hf : FracText dp f b)
    (hd : ∀ c ∈ a ++ b, IsDigit c) (hL : 19 < sigLen (a ++ b)) (e : Int) :
    ∃ d1 d2, a ++ b = d1 ++ d2 ∧ sigLen d1 = 19 ∧
      reread s (p, a.length) (if f = [] then none else some (p + a.length + 1, b.length)) e = some (e - b.length + d2.length, digitsValue d1) := by
  have hlen := congrArg List.length hs
  rw [List.length_drop, List.length_append, List.length_append] at hlen
  have fin : ∀ d1 d2 : List Byte, a ++ b = d1 ++ d2 → (digitsValue d1 < 10 ^ 18 → d2 = []) → digitsValue d1 < 10 ^ 19 → sigLen d1 = 19 := by
    intro d1 d2 h12 h18 h19
    have hd1 : ∀ c ∈ d1, IsDigit c := fun c hc => hd c (by rw [h12]; exact List.mem_append_left _ hc)
    have hb := sigLen_bounds _ hd
    have hb1 := sigLen_bounds _ hd1
    have hN : 10 ^ 19 ≤ digitsValue (a ++ b) := le_trans (Nat.pow_le_pow_right (by decide) (by omega)) (hb.2 (by omega))
    have hge : 10 ^ 18 ≤ digitsValue d1 := by
      by_contra hc
      rw [h12, h18 (by omega), List.append_nil] at hN
      omega
    have l1 : ¬sigLen d1 ≤ 18 := by
      intro hc
      have := Nat.pow_le_pow_right (n := 10) (by decide) hc
      omega
    have l2 : ¬20 ≤ sigLen d1 := by
      intro hc
      have h1 := hb1.2 (by omega)
      have := Nat.pow_le_pow_right (n := 10) (by decide) (show 19 ≤ sigLen d1 - 1 by omega)
      omega
    omega
  unfold reread
  obtain ⟨a1, a2, h1, h2, h3, h4⟩ := nineteenLoop_spec a (f ++ r) [] (s.length + 1) p hs (fun c hc => hd c (List.mem_append_left _ (by simpa using hc))) (by simp [digitsValue]) (by omega)
  rw [List.nil_append] at h2 h3 h4
  rw [show digitsValue ([] : List Byte) = 0 from rfl] at h2
  dsimp only
  rw [h2, some_bind]
  dsimp only
  by_cases hge : digitsValue a1 ≥ 1000000000000000000
  · rw [if_pos hge]
    have h12 : a ++ b = a1 ++ (a2 ++ b) := by rw [h1, List.append_assoc]
    refine ⟨a1, a2 ++ b, h12, fin _ _ h12 (fun hc => absurd hc (by omega)) h4, ?_⟩
    show some _ = _
    congr 2
    rw [h1, List.length_append, List.length_append]; push_cast; ring
  · rw [if_neg hge]
    have ha2 := h3 (by omega)
    rw [ha2, List.append_nil] at h1
    rw [← h1] at hge h4 ⊢
    rcases hf with ⟨rfl, rfl⟩ | rfl
    · exfalso
      have := fin a [] (by simp) (fun _ => rfl) h4
      rw [List.append_nil] at hL
      omega
    · have hsb : s.drop (p + a.length + 1) = b ++ r := by
        rw [Nat.add_assoc, ← List.drop_drop, hs, ← List.drop_drop, List.drop_left]; rfl
      obtain ⟨b1, b2, g1, g2, g3, g4⟩ := nineteenLoop_spec b r a (s.length + 1) (p + a.length + 1) hsb hd h4 (by simp at hlen; omega)
      rw [if_neg (by simp)]
      simp only [Option.getD_some]
      rw [g2, some_bind]
      have h12 : a ++ b = (a ++ b1) ++ b2 := by rw [g1, List.append_assoc]
      refine ⟨a ++ b1, b2, h12, fin _ _ h12 g3 g4, ?_⟩
      show some _ = _
      congr 2
      rw [g1, List.length_append]; push_cast; ring

/-! ### The whole -/

/-- The parts of a text from the digits on: integer part, point and fraction, and what follows; `a` and `b` are as long as possible. -/
structure Parts (dp : Byte) (t a f b r : List Byte) : Prop where
  text : t = a ++ (f ++ r)
  digits : ∀ c ∈ a ++ b, IsDigit c
  frac : FracText dp f b
  stop : (f = [] ∧ Stops r ∧ r.head? ≠ some dp) ∨ (f ≠ [] ∧ Stops r)

theorem parts_exist (dp : Byte) (t : List Byte) : ∃ a f b r, Parts dp t a f b r := by
  obtain ⟨a, r, h1, h2, h3⟩ := run_exists t
  by_cases hr : r.head? = some dp
  · obtain ⟨r', rfl⟩ : ∃ r', r = dp :: r' := by
      cases r with
      | nil => simp at hr
      | cons c r' => exact ⟨r', by simp at hr; rw [hr]⟩
    obtain ⟨b, r2, g1, g2, g3⟩ := run_exists r'
    refine ⟨a, dp :: b, b, r2, by rw [h1, g1]; rfl, ?_, Or.inr rfl, Or.inr ⟨by simp, g3⟩⟩
    intro c hc
    rcases List.mem_append.1 hc with hc | hc
    · exact h2 c hc
    · exact g2 c hc
  · exact ⟨a, [], [], r, by rw [h1]; rfl, by simpa using h2, Or.inl ⟨rfl, rfl⟩, Or.inl ⟨rfl, h3, hr⟩⟩

theorem fracPart_spec {s a f b r : List Byte} {o : Options} {p : Nat} (hp : p ≤ s.length) (hs : s.drop p = a ++ (f ++ r)) (P : Parts o.decimalPoint (a ++ (f ++ r)) a f b r) (i : Nat) :
    fracPart s o (p + a.length) (i % 2 ^ 64) =
      some (p + a.length + f.length, (i * 10 ^ b.length + digitsValue b) % 2 ^ 64, if f = [] then none else some (p + a.length + 1, b.length)) := by
  have hlen := congrArg List.length hs
  rw [List.length_drop, List.length_append, List.length_append] at hlen
  have hs1 : s.drop (p + a.length) = f ++ r := by rw [← List.drop_drop, hs, List.drop_left]
  unfold fracPart
  rw [at1_spec (by omega) hs1, some_bind]
  rcases P.frac with ⟨rfl, rfl⟩ | rfl
  · have : r.head? ≠ some o.decimalPoint := by
      rcases P.stop with h | h
      · exact h.2.2
      · exact absurd rfl h.1
    rw [if_neg (by simpa using this)]
    simp [digitsValue]
  · have hs2 : s.drop (p + a.length + 1) = b ++ r := (drop_get (r := b ++ r) hs1).2.2
    have hst : Stops r := by
      rcases P.stop with h | h
      · exact absurd h.1 (by simp)
      · exact h.2
    rw [if_pos (by simp)]
    dsimp only
    rw [digitLoops_spec i hs2 (by simp at hlen; omega) (fun c hc => P.digits c (List.mem_append_right _ hc)) hst, some_bind, if_neg (by simp)]
    show some _ = _
    congr 2
    · simp; omega
    · congr 2; simp

theorem stops_mid {dp : Byte} {f b r : List Byte} (hdp : ¬IsDigit dp) (hf : FracText dp f b) (hst : (f = [] ∧ Stops r ∧ r.head? ≠ some dp) ∨ (f ≠ [] ∧ Stops r)) : Stops (f ++ r) := by
  rcases hf with ⟨rfl, rfl⟩ | rfl
  · rcases hst with h | h
    · exact h.2.1
    · exact absurd rfl h.1
  · rw [List.cons_append, cons_stops]; exact hdp

/-- `parse_number_string` from the digits on. -/
theorem parseDigits_spec {s a f b r : List Byte} {o : Options} {p : Nat} {neg : Bool} (hp : p ≤ s.length) (hdp : ¬IsDigit o.decimalPoint) (P : Parts o.decimalPoint (s.drop p) a f b r) :
    (a ++ b = [] → parseDigits s o neg p = some none) ∧
    (a ++ b ≠ [] → expPart s o (p + a.length + f.length) = some none → parseDigits s o neg p = some none) ∧
    (a ++ b ≠ [] → ∀ n e, expPart s o (p + a.length + f.length) = some (some (n, e)) → ∃ pns, parseDigits s o neg p = some (some pns) ∧
      pns.lastmatch = n ∧ pns.negative = neg ∧ Reads s pns a b (e - b.length)) := by
  have hs := P.text
  have hlen := congrArg List.length hs
  rw [List.length_drop, List.length_append, List.length_append] at hlen
  have hst := stops_mid hdp P.frac P.stop
  have hda : ∀ c ∈ a, IsDigit c := fun c hc => P.digits c (List.mem_append_left _ hc)
  have h1 := digitLoops_spec 0 hs hp hda hst
  rw [Nat.zero_mul, Nat.zero_add, Nat.zero_mod] at h1
  have P' : Parts o.decimalPoint (a ++ (f ++ r)) a f b r := ⟨rfl, P.digits, P.frac, P.stop⟩
  have h2 := fracPart_spec hp hs P' (digitsValue a)
  rw [← digitsValue_append] at h2
  have hfb : (((if f = [] then none else some (p + a.length + 1, b.length) : Option (Nat × Nat)).map (·.2)).getD 0) = b.length := by
    rcases P.frac with ⟨rfl, rfl⟩ | rfl
    · rfl
    · rfl
  have hcount : ((p + a.length - p : Nat) : Int) - -((b.length : Nat) : Int) = ((a ++ b).length : Nat) := by
    rw [List.length_append]; push_cast [Nat.add_sub_cancel_left]; ring
  have hbl : b.length ≤ f.length := by
    rcases P.frac with ⟨rfl, rfl⟩ | rfl <;> simp
  -- the run of the function
  have run : parseDigits s o neg p = if a ++ b = [] then some none else (expPart s o (p + a.length + f.length)).bind fun x => match x with
      | none => some none
      | some (n, e) => if ((a ++ b).length : Int) > 19 then (zeroLoop s o.decimalPoint (s.length + 1) p ((a ++ b).length : Nat)).bind fun m =>
          if m > 19 then (reread s (p, a.length) (if f = [] then none else some (p + a.length + 1, b.length)) e).bind fun t =>
            some (some ⟨t.1, t.2, n, neg, true, (p, a.length), if f = [] then none else some (p + a.length + 1, b.length)⟩)
          else some (some ⟨-b.length + e, digitsValue (a ++ b) % 2 ^ 64, n, neg, false, (p, a.length), if f = [] then none else some (p + a.length + 1, b.length)⟩)
        else some (some ⟨-b.length + e, digitsValue (a ++ b) % 2 ^ 64, n, neg, false, (p, a.length), if f = [] then none else some (p + a.length + 1, b.length)⟩) := by
    unfold parseDigits
    rw [h1, some_bind]
    dsimp only
    rw [h2, some_bind]
    dsimp only
    rw [hfb, hcount, Nat.add_sub_cancel_left]
    by_cases hab : a ++ b = []
    · rw [if_pos (by rw [hab]; rfl), if_pos hab]; rfl
    · rw [if_neg (by rw [Int.natCast_eq_zero, List.length_eq_zero_iff]; exact hab), if_neg hab]
      show Option.bind _ _ = _
      congr 1
  rw [run]
  refine ⟨fun h => by rw [if_pos h], fun h he => by rw [if_neg h, he]; rfl, fun h n e he => ?_⟩
  rw [if_neg h, he]
  dsimp only [Option.bind_some]
  have hb := sigLen_bounds _ P.digits
  have hsl : sigLen (a ++ b) ≤ (a ++ b).length := by unfold sigLen; exact List.IsSuffix.length_le (List.dropWhile_suffix _)
  have hfr : ((if f = [] then none else some (p + a.length + 1, b.length) : Option (Nat × Nat)) = none ∧ b = []) ∨
      ∃ q r, (if f = [] then none else some (p + a.length + 1, b.length) : Option (Nat × Nat)) = some (q, b.length) ∧ s.drop q = b ++ r ∧ q ≤ s.length := by
    rcases P.frac with ⟨rfl, rfl⟩ | rfl
    · left; exact ⟨rfl, rfl⟩
    · right
      refine ⟨p + a.length + 1, r, rfl, ?_, by simp at hlen; omega⟩
      rw [Nat.add_assoc, ← List.drop_drop, hs, ← List.drop_drop, List.drop_left]; rfl
  have plain : sigLen (a ++ b) ≤ 19 → Reads s ⟨-b.length + e, digitsValue (a ++ b) % 2 ^ 64, n, neg, false, (p, a.length), if f = [] then none else some (p + a.length + 1, b.length)⟩
      a b (e - b.length) := by
    intro hL
    refine ⟨P.digits, ⟨_, hs⟩, rfl, hp, hfr, fun _ => ⟨Nat.mod_eq_of_lt ?_, by ring, rfl⟩, fun hc => by omega⟩
    have := Nat.pow_le_pow_right (n := 10) (by decide) hL
    omega
  by_cases h19 : ((a ++ b).length : Int) > 19
  · rw [if_pos h19]
    obtain ⟨m, hm1, hm2⟩ := zeroLoop_spec hp hs P.frac P.digits hdp
    rw [hm1]
    dsimp only [Option.bind_some]
    by_cases hm : m > 19
    · rw [if_pos hm]
      obtain ⟨d1, d2, q1, q2, q3⟩ := reread_spec hp hs P.frac P.digits (hm2.1 hm) e
      rw [q3]
      refine ⟨_, rfl, rfl, rfl, ⟨P.digits, ⟨_, hs⟩, rfl, hp, hfr, fun hc => ?_, fun _ => ⟨rfl, d1, d2, q1, rfl, q2, rfl⟩⟩⟩
      have := hm2.1 hm
      omega
    · rw [if_neg hm]
      exact ⟨_, rfl, rfl, rfl, plain (by by_contra hc; exact hm (hm2.2 (by omega)))⟩
  · rw [if_neg h19]
    exact ⟨_, rfl, rfl, rfl, plain (by omega)⟩

end Nanostl.FastFloat
