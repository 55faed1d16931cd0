import Verif.Ryu.Parse
import Verif.Ryu.Sci
import Verif.Ryu.Logs

/-!
Specification of the texts the parsers accept, and proof that the reading part accepts just these.
-/

namespace Nanostl.Ryu
open Nanostl.Str (Byte digitsValue)

/-! ### Specification -/

/-- Digits without leading zeros. -/
def sigLen (l : List Byte) : Nat := (l.dropWhile fun c => c == 48).length

/-- The optional point with the digits after it. -/
inductive FracText : List Byte → List Byte → Prop where
  | none : FracText [] []
  | some (b : List Byte) : FracText (46 :: b) b

/-- The optional exponent and its value. -/
inductive ExpText : List Byte → Int → Prop where
  | none : ExpText [] 0
  | plain (e : Byte) (ds : List Byte) (he : e = 101 ∨ e = 69) (hd : ∀ c ∈ ds, IsDigit c) (hn : sigLen ds ≤ 4) : ExpText (e :: ds) (digitsValue ds)
  | plus (e : Byte) (ds : List Byte) (he : e = 101 ∨ e = 69) (hd : ∀ c ∈ ds, IsDigit c) (hn : sigLen ds ≤ 4) : ExpText (e :: 43 :: ds) (digitsValue ds)
  | minus (e : Byte) (ds : List Byte) (he : e = 101 ∨ e = 69) (hd : ∀ c ∈ ds, IsDigit c) (hn : sigLen ds ≤ 4) : ExpText (e :: 45 :: ds) (-(digitsValue ds : Int))

/-- `s` denotes `± c * 10^k`: optional minus sign, digits with at most one point, at most `maxD` of them after leading zeros, optional exponent of
at most four digits after leading zeros. There may be no digits at all. -/
def Denotes (maxD : Nat) (s : List Byte) (neg : Bool) (c : Nat) (k : Int) : Prop :=
  ∃ a f b x v, s = (if neg then [45] else []) ++ (a ++ (f ++ x)) ∧ (∀ c ∈ a ++ b, IsDigit c) ∧ FracText f b ∧ ExpText x v ∧
    sigLen (a ++ b) ≤ maxD ∧ c = digitsValue (a ++ b) ∧ k = v - b.length ∧ s ≠ []

/-! ### Counting digits -/

theorem digitsValue_snoc (l : List Byte) (c : Byte) : digitsValue (l ++ [c]) = 10 * digitsValue l + (c.toNat - 48) := by
  simp [digitsValue]

theorem sigLen_append (l r : List Byte) : sigLen l ≤ sigLen (l ++ r) := by
  unfold sigLen
  rw [List.dropWhile_append]
  split
  · rename_i h; rw [List.isEmpty_iff] at h; rw [h]; simp
  · rw [List.length_append]; omega

theorem sigLen_append_pos {l : List Byte} (h : 0 < sigLen l) (r : List Byte) : sigLen (l ++ r) = sigLen l + r.length := by
  unfold sigLen at h ⊢
  rw [List.dropWhile_append]
  split
  · rename_i he; rw [List.isEmpty_iff] at he; rw [he] at h; simp at h
  · rw [List.length_append]

theorem sigLen_append_zero {l : List Byte} (h : sigLen l = 0) (r : List Byte) : sigLen (l ++ r) = sigLen r := by
  unfold sigLen at h ⊢
  rw [List.dropWhile_append, if_pos]
  rw [List.isEmpty_iff]; exact List.length_eq_zero_iff.1 h

theorem digit_pos {c : Byte} (h : IsDigit c) : c ≠ 48 ↔ 0 < c.toNat - 48 := by
  unfold IsDigit at h
  constructor
  · intro hne
    have : c.toNat ≠ 48 := fun he => hne (UInt8.toNat_inj.1 (by rw [he]; rfl))
    omega
  · rintro hp rfl
    simp at hp

theorem sigLen_bounds : ∀ (l : List Byte), (∀ c ∈ l, IsDigit c) → digitsValue l < 10 ^ sigLen l ∧ (0 < sigLen l → 10 ^ (sigLen l - 1) ≤ digitsValue l)
  | [], _ => by simp [digitsValue, sigLen]
  | c :: l, h => by
    by_cases hc : c = 48
    · have e : sigLen (c :: l) = sigLen l := by unfold sigLen; rw [hc]; simp
      rw [e, digitsValue_cons, hc]
      have := sigLen_bounds l fun c hc => h c (List.mem_cons_of_mem _ hc)
      simpa using this
    · have e : sigLen (c :: l) = l.length + 1 := by
        unfold sigLen; rw [List.dropWhile_cons, if_neg (by simpa using hc)]; rfl
      rw [e]
      refine ⟨digitsValue_lt _ h, fun _ => ?_⟩
      rw [digitsValue_cons, Nat.add_sub_cancel]
      have := (digit_pos (h c List.mem_cons_self)).1 hc
      calc 10 ^ l.length = 1 * 10 ^ l.length := by ring
        _ ≤ (c.toNat - 48) * 10 ^ l.length := Nat.mul_le_mul_right _ this
        _ ≤ _ := Nat.le_add_right _ _

theorem sigLen_zero_iff {l : List Byte} (h : ∀ c ∈ l, IsDigit c) : sigLen l = 0 ↔ digitsValue l = 0 := by
  have hb := sigLen_bounds l h
  constructor
  · intro e; rw [e, Nat.pow_zero] at hb; omega
  · intro e
    by_contra hn
    have := hb.2 (by omega)
    have : 0 < 10 ^ (sigLen l - 1) := Nat.pow_pos (by decide)
    omega

/-- The update of the counter. -/
theorem sigLen_snoc {l : List Byte} {c : Byte} (h : ∀ c ∈ l, IsDigit c) (hc : IsDigit c) :
    sigLen (l ++ [c]) = if digitsValue (l ++ [c]) ≠ 0 then sigLen l + 1 else sigLen l := by
  have hall : ∀ d ∈ l ++ [c], IsDigit d := by
    intro d hd
    rw [List.mem_append, List.mem_singleton] at hd
    rcases hd with hd | rfl
    · exact h d hd
    · exact hc
  by_cases h0 : digitsValue (l ++ [c]) = 0
  · rw [if_neg (by simpa using h0), (sigLen_zero_iff hall).2 h0]
    have := sigLen_append l [c]
    rw [(sigLen_zero_iff hall).2 h0] at this
    omega
  · rw [if_pos h0]
    rcases Nat.eq_zero_or_pos (sigLen l) with hl | hl
    · rw [sigLen_append_zero hl, hl]
      have : c ≠ 48 := by
        rintro rfl
        rw [digitsValue_snoc, (sigLen_zero_iff h).1 hl] at h0
        exact h0 rfl
      unfold sigLen; rw [List.dropWhile_cons, if_neg (by simpa using this)]; rfl
    · rw [sigLen_append_pos hl]; rfl

/-! ### The loop over the digits -/

theorem notDigit {c : Byte} : (c < 48 ∨ c > 57) ↔ ¬IsDigit c := by
  unfold IsDigit
  rw [UInt8.lt_iff_toNat_lt, gt_iff_lt, UInt8.lt_iff_toNat_lt]
  show (c.toNat < 48 ∨ 57 < c.toNat) ↔ _
  omega

theorem drop_get {s r : List Byte} {i : Nat} {c : Byte} (h : s.drop i = c :: r) : i < s.length ∧ s[i]? = some c ∧ s.drop (i + 1) = r := by
  have hl : i < s.length := by
    by_contra hc
    rw [List.drop_eq_nil_of_le (by omega)] at h; simp at h
  refine ⟨hl, ?_, ?_⟩
  · rw [← List.head?_drop, h]; rfl
  · rw [← List.drop_drop, h]; rfl

section
variable {wrap : Nat → Nat} {maxD : Nat} {s : List Byte}

/-- A run of digits. -/
theorem mantLoop_digits (h0 : 0 < maxD) (hw : ∀ x, x < 10 ^ maxD → wrap x = x) : ∀ (a r pre : List Byte) (f i dot : Nat), s.drop i = a ++ r → (∀ c ∈ a, IsDigit c) →
    (∀ c ∈ pre, IsDigit c) → sigLen pre ≤ maxD →
    mantLoop wrap maxD s (f + a.length) ⟨i, digitsValue pre, sigLen pre, dot⟩ =
      if sigLen (pre ++ a) ≤ maxD then mantLoop wrap maxD s f ⟨i + a.length, digitsValue (pre ++ a), sigLen (pre ++ a), dot⟩ else some (.error .tooLong)
  | [], r, pre, f, i, dot, hs, ha, hpre, hm => by
    rw [List.append_nil, if_pos hm]; rfl
  | c :: a, r, pre, f, i, dot, hs, ha, hpre, hm => by
    obtain ⟨hl, hg, hd⟩ := drop_get (r := a ++ r) hs
    have hc := ha c List.mem_cons_self
    have hpre' : ∀ d ∈ pre ++ [c], IsDigit d := by
      intro d hd
      rw [List.mem_append, List.mem_singleton] at hd
      rcases hd with hd | rfl
      · exact hpre d hd
      · exact hc
    rw [List.length_cons, show f + (a.length + 1) = (f + a.length) + 1 by omega, mantLoop]
    simp only
    rw [if_pos hl, hg, some_bind, if_neg (digit_ne hc).2.1, if_neg (by rw [notDigit]; exact not_not.2 hc)]
    have happ : pre ++ c :: a = (pre ++ [c]) ++ a := by simp
    by_cases hmax : sigLen pre ≥ maxD
    · rw [if_pos hmax, if_neg]
      · rfl
      · rw [sigLen_append_pos (by omega), List.length_cons]; omega
    · rw [if_neg hmax]
      have hv : wrap (10 * digitsValue pre + (c.toNat - 48)) = digitsValue (pre ++ [c]) := by
        rw [digitsValue_snoc]
        apply hw
        rw [← digitsValue_snoc]
        refine Nat.lt_of_lt_of_le (sigLen_bounds _ hpre').1 (Nat.pow_le_pow_right (by decide) ?_)
        rw [sigLen_snoc hpre hc]
        split <;> omega
      rw [hv]
      have hsg := sigLen_snoc hpre hc
      rw [← hsg]
      have ih := mantLoop_digits h0 hw a r (pre ++ [c]) f (i + 1) dot hd (fun d hd => ha d (List.mem_cons_of_mem _ hd)) hpre' (by rw [hsg]; split <;> omega)
      rw [ih, ← happ, show i + 1 + a.length = i + (a.length + 1) by omega]

/-- The end of the digits. -/
theorem mantLoop_stop {st : Mant} {r : List Byte} (f : Nat) (hs : s.drop st.i = r) (hr : ∀ c t, r = c :: t → ¬IsDigit c ∧ c ≠ 46) :
    mantLoop wrap maxD s (f + 1) st = some (.ok st) := by
  rw [mantLoop]
  cases r with
  | nil =>
    have : s.length ≤ st.i := by
      by_contra hc
      have := congrArg List.length hs
      rw [List.length_drop, List.length_nil] at this; omega
    rw [if_neg (by omega)]; rfl
  | cons c t =>
    obtain ⟨hl, hg, _⟩ := drop_get hs
    obtain ⟨h1, h2⟩ := hr c t rfl
    rw [if_pos hl, hg, some_bind, if_neg h2, if_pos (notDigit.2 h1)]; rfl

theorem mantLoop_dot {i m d dot : Nat} {r : List Byte} (f : Nat) (hs : s.drop i = 46 :: r) :
    mantLoop wrap maxD s (f + 1) ⟨i, m, d, dot⟩ =
      if dot ≠ s.length then some (.error .malformed) else mantLoop wrap maxD s f ⟨i + 1, m, d, i⟩ := by
  obtain ⟨hl, hg, _⟩ := drop_get hs
  rw [mantLoop]
  simp only
  rw [if_pos hl, hg, some_bind, if_pos rfl]
  split <;> rfl

/-- Where the point is. -/
def dotPos (len i : Nat) (f a : List Byte) : Nat := if f = [] then len else i + a.length

/-- Digits, point, digits, up to something that continues neither. -/
theorem mant_stage (h0 : 0 < maxD) (hw : ∀ x, x < 10 ^ maxD → wrap x = x) {i : Nat} {a f b r : List Byte} (hs : s.drop i = a ++ (f ++ r))
    (hd : ∀ c ∈ a ++ b, IsDigit c) (hf : FracText f b) (hr : ∀ c t, r = c :: t → ¬IsDigit c ∧ c ≠ 46) :
    mantLoop wrap maxD s (s.length + 1) ⟨i, 0, 0, s.length⟩ =
      if sigLen (a ++ b) ≤ maxD then some (.ok ⟨i + a.length + f.length, digitsValue (a ++ b), sigLen (a ++ b), dotPos s.length i f a⟩)
      else some (.error .tooLong) := by
  have hlen : a.length + (f.length + r.length) ≤ s.length := by
    have := congrArg List.length hs
    rw [List.length_drop, List.length_append, List.length_append] at this; omega
  have hda : ∀ c ∈ a, IsDigit c := fun c hc => hd c (List.mem_append_left _ hc)
  have e1 := mantLoop_digits h0 hw a (f ++ r) [] (s.length + 1 - a.length) i s.length hs hda (by simp) (by simp [sigLen])
  rw [show s.length + 1 - a.length + a.length = s.length + 1 by omega] at e1
  rw [show (⟨i, 0, 0, s.length⟩ : Mant) = ⟨i, digitsValue [], sigLen [], s.length⟩ from rfl, e1, List.nil_append]
  have hdrop : s.drop (i + a.length) = f ++ r := by rw [← List.drop_drop, hs]; simp
  cases hf with
  | none =>
    rw [List.append_nil]
    split
    · rw [show s.length + 1 - a.length = s.length - a.length + 1 by omega, mantLoop_stop (r := r) _ (by simpa using hdrop) hr]; rfl
    · rfl
  | some =>
    have hl2 : (46 :: b).length = b.length + 1 := rfl
    rw [hl2] at hlen
    by_cases ha : sigLen a ≤ maxD
    · rw [if_pos ha, show s.length + 1 - a.length = (s.length - a.length - b.length + b.length) + 1 by omega, mantLoop_dot _ hdrop, if_neg (by simp)]
      have hdrop2 : s.drop (i + a.length + 1) = b ++ r := (drop_get (r := b ++ r) hdrop).2.2
      rw [mantLoop_digits h0 hw b r a _ _ _ hdrop2 (fun c hc => hd c (List.mem_append_right _ hc)) hda ha]
      split
      · rw [show s.length - a.length - b.length = (s.length - a.length - b.length - 1) + 1 by omega,
          mantLoop_stop (r := r) _ (by rw [show i + a.length + 1 + b.length = i + a.length + 1 + b.length from rfl, ← List.drop_drop, hdrop2]; simp) hr]
        rw [hl2, dotPos, if_neg (by simp), show i + a.length + 1 + b.length = i + a.length + (b.length + 1) by omega]
      · rfl
    · rw [if_neg ha, if_neg]
      have := sigLen_append a b
      omega

/-- A second point is an error. -/
theorem mant_dots (h0 : 0 < maxD) (hw : ∀ x, x < 10 ^ maxD → wrap x = x) {i : Nat} {a b r : List Byte} (hs : s.drop i = a ++ (46 :: b ++ 46 :: r))
    (hd : ∀ c ∈ a ++ b, IsDigit c) :
    ∃ e, (e = .malformed ∨ e = .tooLong) ∧ mantLoop wrap maxD s (s.length + 1) ⟨i, 0, 0, s.length⟩ = some (.error e) := by
  have hlen : i + a.length + (b.length + r.length + 2) ≤ s.length := by
    have := congrArg List.length hs
    simp only [List.length_drop, List.length_append, List.length_cons] at this; omega
  have hda : ∀ c ∈ a, IsDigit c := fun c hc => hd c (List.mem_append_left _ hc)
  have e1 := mantLoop_digits h0 hw a (46 :: b ++ 46 :: r) [] (s.length + 1 - a.length) i s.length hs hda (by simp) (by simp [sigLen])
  rw [show s.length + 1 - a.length + a.length = s.length + 1 by omega] at e1
  rw [show (⟨i, 0, 0, s.length⟩ : Mant) = ⟨i, digitsValue [], sigLen [], s.length⟩ from rfl, e1, List.nil_append]
  have hdrop : s.drop (i + a.length) = 46 :: (b ++ 46 :: r) := by rw [← List.drop_drop, hs]; simp
  by_cases ha : sigLen a ≤ maxD
  · rw [if_pos ha, show s.length + 1 - a.length = (s.length - a.length - b.length + b.length) + 1 by omega, mantLoop_dot _ hdrop, if_neg (by simp)]
    have hdrop2 : s.drop (i + a.length + 1) = b ++ 46 :: r := (drop_get hdrop).2.2
    rw [mantLoop_digits h0 hw b _ a _ _ _ hdrop2 (fun c hc => hd c (List.mem_append_right _ hc)) hda ha]
    split
    · rw [show s.length - a.length - b.length = (s.length - a.length - b.length - 1) + 1 by omega,
        mantLoop_dot (r := r) _ (by rw [← List.drop_drop, hdrop2]; simp), if_pos (by omega)]
      exact ⟨_, Or.inl rfl, rfl⟩
    · exact ⟨_, Or.inr rfl, rfl⟩
  · rw [if_neg ha]; exact ⟨_, Or.inr rfl, rfl⟩

end

/-! ### The exponent -/

section
variable {s : List Byte}

theorem expLoop_digits : ∀ (a r pre : List Byte) (f i : Nat), s.drop i = a ++ r → (∀ c ∈ a, IsDigit c) → (∀ c ∈ pre, IsDigit c) → sigLen pre ≤ 4 →
    expLoop s (f + a.length) i (digitsValue pre) (sigLen pre) =
      if sigLen (pre ++ a) ≤ 4 then expLoop s f (i + a.length) (digitsValue (pre ++ a)) (sigLen (pre ++ a)) else some (.error .tooLong)
  | [], r, pre, f, i, hs, ha, hpre, hm => by
    rw [List.append_nil, if_pos hm]; rfl
  | c :: a, r, pre, f, i, hs, ha, hpre, hm => by
    obtain ⟨hl, hg, hd⟩ := drop_get (r := a ++ r) hs
    have hc := ha c List.mem_cons_self
    have hpre' : ∀ d ∈ pre ++ [c], IsDigit d := by
      intro d hd
      rw [List.mem_append, List.mem_singleton] at hd
      rcases hd with hd | rfl
      · exact hpre d hd
      · exact hc
    rw [List.length_cons, show f + (a.length + 1) = (f + a.length) + 1 by omega, expLoop]
    rw [if_pos hl, hg, some_bind, if_neg (by rw [notDigit]; exact not_not.2 hc)]
    have happ : pre ++ c :: a = (pre ++ [c]) ++ a := by simp
    have hsg := sigLen_snoc hpre hc
    by_cases hmax : sigLen pre > 3
    · rw [if_pos hmax, if_neg]
      · rfl
      · rw [sigLen_append_pos (by omega), List.length_cons]; omega
    · rw [if_neg hmax]
      have hle : sigLen (pre ++ [c]) ≤ 4 := by rw [hsg]; split <;> omega
      have hv : digitsValue (pre ++ [c]) < 2 ^ 31 := by
        have h1 := (sigLen_bounds _ hpre').1
        have h2 : 10 ^ sigLen (pre ++ [c]) ≤ 10 ^ 4 := Nat.pow_le_pow_right (by decide) hle
        omega
      rw [← digitsValue_snoc, chk_pos hv, some_bind]
      simp only
      rw [← hsg]
      have ih := expLoop_digits a r (pre ++ [c]) f (i + 1) hd (fun d hd => ha d (List.mem_cons_of_mem _ hd)) hpre' hle
      rw [ih, ← happ, show i + 1 + a.length = i + (a.length + 1) by omega]

/-- Digits of the exponent up to the first other byte. -/
theorem exp_stage {i : Nat} {ds r : List Byte} (hs : s.drop i = ds ++ r) (hi : i ≤ s.length) (hd : ∀ c ∈ ds, IsDigit c)
    (hr : ∀ c t, r = c :: t → ¬IsDigit c) :
    expLoop s (s.length + 1) i 0 0 =
      if sigLen ds ≤ 4 then (if r = [] then some (.ok (s.length, digitsValue ds)) else some (.error .malformed)) else some (.error .tooLong) := by
  have hlen : ds.length + r.length + i = s.length := by
    have := congrArg List.length hs
    rw [List.length_drop, List.length_append] at this; omega
  have e1 := expLoop_digits ds r [] (s.length + 1 - ds.length) i hs hd (by simp) (by simp [sigLen])
  rw [show s.length + 1 - ds.length + ds.length = s.length + 1 by omega, List.nil_append] at e1
  rw [show expLoop s (s.length + 1) i 0 0 = expLoop s (s.length + 1) i (digitsValue []) (sigLen []) from rfl, e1]
  have hdrop : s.drop (i + ds.length) = r := by rw [← List.drop_drop, hs]; simp
  split
  · rw [show s.length + 1 - ds.length = s.length - ds.length + 1 by omega, expLoop]
    cases r with
    | nil =>
      rw [if_neg (by simp at hlen; omega), if_pos rfl]
      show some _ = some _
      rw [show i + ds.length = s.length by simp at hlen; omega]
    | cons c t =>
      obtain ⟨hl, hg, _⟩ := drop_get hdrop
      rw [if_pos hl, hg, some_bind, if_pos (notDigit.2 (hr c t rfl)), if_neg (by simp)]; rfl
  · rfl

theorem at2_nil {i : Nat} {a b : Byte} (h : s.length ≤ i) : at2 s i a b = some false := by
  rw [at2, if_neg (by omega)]; rfl

theorem at2_cons {i : Nat} {a b c : Byte} {r : List Byte} (h : s.drop i = c :: r) : at2 s i a b = some (c == a || c == b) := by
  obtain ⟨hl, hg, _⟩ := drop_get h
  rw [at2, if_pos hl, hg, some_bind]; rfl

theorem exp_none {i : Nat} {r : List Byte} (hs : s.drop i = r) (hr : ∀ c t, r = c :: t → c ≠ 101 ∧ c ≠ 69) :
    expPart s i = some (.ok ⟨i, s.length, false, 0⟩) := by
  have h : at2 s i 101 69 = some false := by
    cases r with
    | nil => exact at2_nil (by rw [List.drop_eq_nil_iff] at hs; exact hs)
    | cons c t =>
      obtain ⟨h1, h2⟩ := hr c t rfl
      rw [at2_cons hs]; simp [h1, h2]
  rw [expPart, h, some_bind, if_neg (by decide)]; rfl

/-- What is known after the exponent letter. -/
theorem exp_some {i : Nat} {e : Byte} {sg ds r : List Byte} (hs : s.drop i = e :: (sg ++ (ds ++ r))) (he : e = 101 ∨ e = 69)
    (hsg : (sg = [] ∧ ∀ c t, ds ++ r = c :: t → c ≠ 45 ∧ c ≠ 43) ∨ sg = [43] ∨ sg = [45]) (hd : ∀ c ∈ ds, IsDigit c) (hr : ∀ c t, r = c :: t → ¬IsDigit c) :
    expPart s i =
      if sigLen ds ≤ 4 then (if r = [] then some (.ok ⟨s.length, i, decide (sg = [45]), digitsValue ds⟩) else some (.error .malformed))
      else some (.error .tooLong) := by
  have h1 : at2 s i 101 69 = some true := by
    rw [at2_cons hs]
    rcases he with rfl | rfl <;> rfl
  obtain ⟨hl, _, hd1⟩ := drop_get hs
  rw [expPart, h1, some_bind, if_pos rfl]
  simp only
  have key : ∀ n b, s.drop n = ds ++ r → n ≤ s.length → (do
      match ← expLoop s (s.length + 1) n 0 0 with
      | .error e => pure (.error e)
      | .ok (k, e10) => pure (.ok ⟨k, i, b, e10⟩) : Option (Except Status ExpPart)) =
      if sigLen ds ≤ 4 then (if r = [] then some (.ok ⟨s.length, i, b, digitsValue ds⟩) else some (.error .malformed))
      else some (.error .tooLong) := by
    intro n b hn hln
    rw [exp_stage hn hln hd hr]
    split
    · split <;> rfl
    · rfl
  rcases hsg with ⟨rfl, hne⟩ | rfl | rfl
  · have h2 : at2 s (i + 1) 45 43 = some false := by
      rw [List.nil_append] at hd1
      rcases hcase : ds ++ r with _ | ⟨c, t⟩
      · rw [hcase] at hd1
        exact at2_nil (by rw [List.drop_eq_nil_iff] at hd1; exact hd1)
      · obtain ⟨a, b⟩ := hne c t hcase
        rw [hcase] at hd1
        rw [at2_cons hd1]; simp [a, b]
    rw [h2, some_bind, if_neg (by decide), if_neg (by decide)]
    exact key (i + 1) false hd1 hl
  · obtain ⟨hl2, hg2, hd2⟩ := drop_get (r := ds ++ r) hd1
    have h2 : at2 s (i + 1) 45 43 = some true := by rw [at2_cons hd1]; rfl
    rw [h2, some_bind, if_pos rfl, if_pos rfl, hg2, some_bind]
    exact key (i + 1 + 1) _ hd2 hl2
  · obtain ⟨hl2, hg2, hd2⟩ := drop_get (r := ds ++ r) hd1
    have h2 : at2 s (i + 1) 45 43 = some true := by rw [at2_cons hd1]; rfl
    rw [h2, some_bind, if_pos rfl, if_pos rfl, hg2, some_bind]
    exact key (i + 1 + 1) _ hd2 hl2

end

/-! ### The whole text -/

section
variable {wrap : Nat → Nat} {maxD : Nat} {s : List Byte}

theorem sign_stage {neg : Bool} {r : List Byte} (hs : s = (if neg then [45] else []) ++ r) (hne : s ≠ []) (hr : neg = false → ∀ c t, r = c :: t → c ≠ 45) :
    signPart s = some (neg, neg.toNat) ∧ s.drop neg.toNat = r := by
  cases neg with
  | false =>
    rw [if_neg (by decide), List.nil_append] at hs
    subst hs
    cases s with
    | nil => exact absurd rfl hne
    | cons c t =>
      refine ⟨?_, rfl⟩
      show some _ = some _
      rw [if_neg (hr rfl c t rfl)]; rfl
  | true =>
    rw [if_pos rfl] at hs
    subst hs
    exact ⟨rfl, rfl⟩

/-- Reading up to the exponent. -/
theorem parse_mant (h0 : 0 < maxD) (hw : ∀ x, x < 10 ^ maxD → wrap x = x) {neg : Bool} {a f b r : List Byte}
    (hs : s = (if neg then [45] else []) ++ (a ++ (f ++ r))) (hne : s ≠ []) (hd : ∀ c ∈ a ++ b, IsDigit c) (hf : FracText f b)
    (hr : ∀ c t, r = c :: t → ¬IsDigit c ∧ c ≠ 46) (hm : neg = false → ∀ c t, a ++ (f ++ r) = c :: t → c ≠ 45) :
    s.drop (neg.toNat + a.length + f.length) = r ∧ neg.toNat + a.length + f.length + r.length = s.length ∧
    parseText wrap maxD s = if sigLen (a ++ b) ≤ maxD then
        (expPart s (neg.toNat + a.length + f.length)).bind fun x => match x with
          | .error e => some (.error e)
          | .ok x => parseEnd s neg ⟨neg.toNat + a.length + f.length, digitsValue (a ++ b), sigLen (a ++ b), dotPos s.length neg.toNat f a⟩ x
      else some (.error .tooLong) := by
  obtain ⟨h1, h2⟩ := sign_stage hs hne hm
  refine ⟨by rw [Nat.add_assoc, ← List.drop_drop, h2, ← List.drop_drop]; simp, ?_, ?_⟩
  · have := congrArg List.length hs
    simp only [List.length_append] at this
    rw [this]
    cases neg <;> simp <;> omega
  · rw [parseText, if_neg (fun h => hne (List.length_eq_zero_iff.1 h)), h1, some_bind, mant_stage h0 hw h2 hd hf hr]
    split <;> rfl

/-- Accepted texts are read as what they denote. -/
theorem parse_complete (h0 : 0 < maxD) (hw : ∀ x, x < 10 ^ maxD → wrap x = x) (hlen : s.length < 2 ^ 31 - 10000) {neg : Bool} {c : Nat} {k : Int}
    (h : Denotes maxD s neg c k) : ∃ d, parseText wrap maxD s = some (.ok ⟨neg, c, d, k⟩) ∧ (0 < c → 10 ^ (d - 1) ≤ c ∧ c < 10 ^ d ∧ 0 < d ∧ d ≤ maxD) := by
  obtain ⟨a, f, b, x, v, hs, hd, hf, hx, hn, hc, hk, hne⟩ := h
  have hxr : ∀ c t, x = c :: t → ¬IsDigit c ∧ c ≠ 46 ∧ c ≠ 45 := by
    intro c t he
    cases hx with
    | none => simp at he
    | plain e ds hh _ _ => rw [List.cons.injEq] at he; rw [← he.1]; rcases hh with rfl | rfl <;> decide
    | plus e ds hh _ _ => rw [List.cons.injEq] at he; rw [← he.1]; rcases hh with rfl | rfl <;> decide
    | minus e ds hh _ _ => rw [List.cons.injEq] at he; rw [← he.1]; rcases hh with rfl | rfl <;> decide
  have hm : ∀ c t, a ++ (f ++ x) = c :: t → c ≠ 45 := by
    intro c t he
    cases a with
    | cons d a =>
      rw [List.cons_append, List.cons.injEq] at he
      rw [← he.1]
      exact (digit_ne (hd d (by simp))).2.2.1
    | nil =>
      rw [List.nil_append] at he
      cases hf with
      | none => exact (hxr c t he).2.2
      | some => rw [List.cons_append, List.cons.injEq] at he; rw [← he.1]; decide
  obtain ⟨q1, q2, q3⟩ := parse_mant h0 hw hs hne hd hf (fun c t he => ⟨(hxr c t he).1, (hxr c t he).2.1⟩) (fun _ => hm)
  refine ⟨sigLen (a ++ b), ?_, ?_⟩
  · rw [q3, if_pos hn]
    have hdot : ∀ (eI : Nat), (x = [] → eI = s.length) → (x ≠ [] → eI = neg.toNat + a.length + f.length) →
        (if dotPos s.length neg.toNat f a < eI then (eI : Int) - dotPos s.length neg.toNat f a - 1 else 0) = b.length := by
      intro eI e1 e2
      unfold dotPos
      cases hf with
      | none =>
        rw [if_pos rfl, if_neg]
        · rfl
        · by_cases hx0 : x = []
          · rw [e1 hx0]; omega
          · rw [e2 hx0]; omega
      | some =>
        have hl2 : (46 :: b).length = b.length + 1 := rfl
        rw [show (if (46 :: b : List Byte) = [] then s.length else neg.toNat + a.length) = neg.toNat + a.length from if_neg (by simp)]
        rw [hl2] at e2 q2
        have : eI = neg.toNat + a.length + (b.length + 1) := by
          by_cases hx0 : x = []
          · rw [hx0, List.length_nil] at q2
            rw [e1 hx0]; omega
          · rw [e2 hx0]
        rw [this, if_pos (by omega)]; omega
    have hb : b.length ≤ s.length := by
      cases hf with
      | none => simp
      | some => simp at q2; omega
    have fin : ∀ (eI e : Nat) (sg : Bool), (x = [] → eI = s.length) → (x ≠ [] → eI = neg.toNat + a.length + f.length) → e < 10000 →
        v = (if sg then -(e : Int) else e) →
        parseEnd s neg ⟨neg.toNat + a.length + f.length, digitsValue (a ++ b), sigLen (a ++ b), dotPos s.length neg.toNat f a⟩ ⟨s.length, eI, sg, e⟩ =
          some (.ok ⟨neg, c, sigLen (a ++ b), k⟩) := by
      intro eI e sg e1 e2 h4 hv
      rw [parseEnd]
      simp only
      rw [if_neg (by omega), hdot eI e1 e2, ← hv, ← hk, chk_pos, some_bind, hc]
      · rfl
      · rw [hk, hv]
        split <;> omega
    have small : ∀ ds : List Byte, (∀ c ∈ ds, IsDigit c) → sigLen ds ≤ 4 → digitsValue ds < 10000 := by
      intro ds h1 h2
      exact Nat.lt_of_lt_of_le (sigLen_bounds ds h1).1 (Nat.pow_le_pow_right (n := 10) (by decide) h2)
    cases hx with
    | none =>
      rw [exp_none q1 (by simp)]
      show parseEnd _ _ _ _ = _
      rw [show neg.toNat + a.length + f.length = s.length by simpa using q2]
      have := fin s.length 0 false (fun _ => rfl) (by simp) (by decide) rfl
      rwa [show neg.toNat + a.length + f.length = s.length by simpa using q2] at this
    | plain e ds he hd1 hn1 =>
      rw [exp_some (sg := []) (ds := ds) (r := []) (by simpa using q1) he (Or.inl ⟨rfl, fun c t ht => ?_⟩) hd1 (by simp), if_pos hn1, if_pos rfl]
      · exact fin _ _ _ (by simp) (fun _ => rfl) (small ds hd1 hn1) rfl
      · rw [List.append_nil] at ht
        have := hd1 c (by rw [ht]; simp)
        refine ⟨(digit_ne this).2.2.1, ?_⟩
        rintro rfl
        revert this; decide
    | plus e ds he hd1 hn1 =>
      rw [exp_some (sg := [43]) (ds := ds) (r := []) (by simpa using q1) he (Or.inr (Or.inl rfl)) hd1 (by simp), if_pos hn1, if_pos rfl]
      exact fin _ _ _ (by simp) (fun _ => rfl) (small ds hd1 hn1) rfl
    | minus e ds he hd1 hn1 =>
      rw [exp_some (sg := [45]) (ds := ds) (r := []) (by simpa using q1) he (Or.inr (Or.inr rfl)) hd1 (by simp), if_pos hn1, if_pos rfl]
      exact fin _ _ _ (by simp) (fun _ => rfl) (small ds hd1 hn1) rfl
  · intro hpos
    rw [hc] at hpos ⊢
    obtain ⟨b1, b2⟩ := sigLen_bounds _ hd
    have : 0 < sigLen (a ++ b) := by
      rcases Nat.eq_zero_or_pos (sigLen (a ++ b)) with h | h
      · rw [(sigLen_zero_iff hd).1 h] at hpos; omega
      · exact h
    exact ⟨b2 this, b1, this, hn⟩

/-- Splitting off the digits at the front. -/
theorem split_digits (l : List Byte) : ∃ a r, l = a ++ r ∧ (∀ c ∈ a, IsDigit c) ∧ ∀ c t, r = c :: t → ¬IsDigit c := by
  refine ⟨l.takeWhile fun c => decide (IsDigit c), l.dropWhile fun c => decide (IsDigit c), List.takeWhile_append_dropWhile.symm, ?_, ?_⟩
  · intro c hc
    have := List.all_takeWhile (p := fun c => decide (IsDigit c)) (l := l)
    rw [List.all_eq_true] at this
    exact of_decide_eq_true (this c hc)
  · intro c t hr hc
    have := List.head?_dropWhile_not (fun c => decide (IsDigit c)) l
    rw [hr] at this
    simp [hc] at this

/-- Everything else is an error. -/
theorem parse_sound (h0 : 0 < maxD) (hw : ∀ x, x < 10 ^ maxD → wrap x = x) (hlen : s.length < 2 ^ 31 - 10000) :
    (∃ neg c k, Denotes maxD s neg c k) ∨
      (∃ e, (e = .tooShort ∧ s = [] ∨ e = .tooLong ∨ e = .malformed) ∧ parseText wrap maxD s = some (.error e)) := by
  by_cases hne : s = []
  · right
    exact ⟨.tooShort, Or.inl ⟨rfl, hne⟩, by rw [parseText, if_pos (by rw [hne]; rfl)]; rfl⟩
  -- sign
  obtain ⟨neg, s1, hs, hm⟩ : ∃ (neg : Bool) (s1 : List Byte), s = (if neg then [45] else []) ++ s1 ∧ (neg = false → ∀ c t, s1 = c :: t → c ≠ 45) := by
    cases s with
    | nil => exact absurd rfl hne
    | cons c t =>
      by_cases hc : c = 45
      · exact ⟨true, t, by rw [hc]; rfl, fun h => by simp at h⟩
      · exact ⟨false, c :: t, rfl, fun _ d u hd => by rw [List.cons.injEq] at hd; rw [← hd.1]; exact hc⟩
  obtain ⟨a, r1, rfl, ha, hr1⟩ := split_digits s1
  -- the case of a good number, with the rest of the text
  have tail : ∀ f b r, r1 = f ++ r → FracText f b → (∀ c ∈ a ++ b, IsDigit c) → (∀ c t, r = c :: t → ¬IsDigit c ∧ c ≠ 46) →
      (∃ neg c k, Denotes maxD s neg c k) ∨
      (∃ e, (e = .tooShort ∧ s = [] ∨ e = .tooLong ∨ e = .malformed) ∧ parseText wrap maxD s = some (.error e)) := by
    intro f b r hfr hf hd hr
    subst hfr
    obtain ⟨q1, q2, q3⟩ := parse_mant h0 hw hs hne hd hf hr hm
    by_cases hn : sigLen (a ++ b) ≤ maxD
    · rw [if_pos hn] at q3
      have den : ∀ v, ExpText r v → ∃ neg c k, Denotes maxD s neg c k := fun v hx =>
        ⟨neg, _, _, a, f, b, r, v, hs, hd, hf, hx, hn, rfl, rfl, hne⟩
      cases r with
      | nil => exact Or.inl (den 0 .none)
      | cons e t =>
        by_cases he : e = 101 ∨ e = 69
        · obtain ⟨sg, t1, ht, hsg⟩ : ∃ sg t1, t = sg ++ t1 ∧ ((sg = [] ∧ ∀ c u, t1 = c :: u → c ≠ 45 ∧ c ≠ 43) ∨ sg = [43] ∨ sg = [45]) := by
            cases t with
            | nil => exact ⟨[], [], rfl, Or.inl ⟨rfl, by simp⟩⟩
            | cons c u =>
              by_cases c1 : c = 43
              · exact ⟨[43], u, by rw [c1]; rfl, Or.inr (Or.inl rfl)⟩
              · by_cases c2 : c = 45
                · exact ⟨[45], u, by rw [c2]; rfl, Or.inr (Or.inr rfl)⟩
                · exact ⟨[], c :: u, rfl, Or.inl ⟨rfl, fun d w hd => by rw [List.cons.injEq] at hd; rw [← hd.1]; exact ⟨c2, c1⟩⟩⟩
          obtain ⟨ds, r2, rfl, hds, hr2⟩ := split_digits t1
          rw [exp_some (by rw [q1, ht]) he hsg hds hr2] at q3
          by_cases h4 : sigLen ds ≤ 4
          · rw [if_pos h4] at q3
            by_cases hr0 : r2 = []
            · left
              subst hr0
              rw [ht, List.append_nil] at den
              rcases hsg with ⟨rfl, _⟩ | rfl | rfl
              · exact den _ (.plain e ds he hds h4)
              · exact den _ (.plus e ds he hds h4)
              · exact den _ (.minus e ds he hds h4)
            · rw [if_neg hr0] at q3
              exact Or.inr ⟨_, Or.inr (Or.inr rfl), q3⟩
          · rw [if_neg h4] at q3
            exact Or.inr ⟨_, Or.inr (Or.inl rfl), q3⟩
        · rw [exp_none q1 (fun c u hc => by rw [List.cons.injEq] at hc; rw [← hc.1]; exact not_or.1 he)] at q3
          right
          refine ⟨.malformed, Or.inr (Or.inr rfl), ?_⟩
          rw [q3]
          show parseEnd _ _ _ _ = _
          rw [parseEnd, if_pos (by rw [List.length_cons] at q2; simp only; omega)]; rfl
    · rw [if_neg hn] at q3
      exact Or.inr ⟨_, Or.inr (Or.inl rfl), q3⟩
  by_cases hdot : ∃ t, r1 = 46 :: t
  · obtain ⟨t, rfl⟩ := hdot
    obtain ⟨b, r2, rfl, hb, hr2⟩ := split_digits t
    have hd : ∀ c ∈ a ++ b, IsDigit c := by
      intro c hc
      rw [List.mem_append] at hc
      exact hc.elim (ha c) (hb c)
    by_cases hdot2 : ∃ u, r2 = 46 :: u
    · right
      obtain ⟨u, rfl⟩ := hdot2
      obtain ⟨h1, h2⟩ := sign_stage hs hne hm
      obtain ⟨e, he, hl⟩ := mant_dots h0 hw (wrap := wrap) h2 hd
      refine ⟨e, by rcases he with rfl | rfl <;> simp, ?_⟩
      rw [parseText, if_neg (fun h => hne (List.length_eq_zero_iff.1 h)), h1, some_bind, hl, some_bind]; rfl
    · exact tail (46 :: b) b r2 rfl (.some b) hd fun c t hc => ⟨hr2 c t hc, fun h => hdot2 ⟨t, by rw [hc, h]⟩⟩
  · exact tail [] [] r1 rfl .none (by simpa using ha) fun c t hc => ⟨hr1 c t hc, fun h => hdot ⟨t, by rw [hc, h]⟩⟩

end

end Nanostl.Ryu
