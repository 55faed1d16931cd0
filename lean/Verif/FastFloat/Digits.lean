import Verif.FastFloat.TextModel
import Verif.Ryu.ParseText

/-!
Runs of digits: the test and the conversion of eight digits at once are exact, and the loops of `parse_number_string` read the longest run.
-/

namespace Nanostl.FastFloat
open Nanostl.Float
open Nanostl.Str (Byte digitsValue)
open Nanostl.Ryu (w64 sub64 chk IsDigit digitsValue_cons digitsValue_snoc digitsValue_lt sigLen chk_pos some_bind)

theorem isInteger_iff {c : Byte} : isInteger c = true ↔ IsDigit c := by
  unfold isInteger IsDigit
  rw [Bool.and_eq_true, decide_eq_true_iff, decide_eq_true_iff, ge_iff_le, UInt8.le_iff_toNat_le, UInt8.le_iff_toNat_le]
  rfl

theorem digitsValue_append (a b : List Byte) : digitsValue (a ++ b) = digitsValue a * 10 ^ b.length + digitsValue b := by
  induction a with
  | nil => simp [digitsValue]
  | cons c a ih => rw [List.cons_append, digitsValue_cons, digitsValue_cons, ih, List.length_append, Nat.pow_add]; ring

theorem leWord_lt : ∀ l : List Byte, leWord l < 256 ^ l.length
  | [] => by simp [leWord]
  | c :: l => by
    have := leWord_lt l
    have := c.toNat_lt
    rw [leWord, List.length_cons, Nat.pow_succ]
    omega

/-! ### The test -/

/-- `n` copies of a byte. -/
def rep (x : Nat) : Nat → Nat
  | 0 => 0
  | n + 1 => x + 256 * rep x n

theorem and_eq_zero_step (A m M : Nat) (hm : m < 256) : A &&& (m + 256 * M) = 0 ↔ A % 256 &&& m = 0 ∧ A / 256 &&& M = 0 := by
  have h1 : (A &&& (m + 256 * M)) % 2 ^ 8 = A % 256 &&& m := by
    rw [Nat.and_mod_two_pow]; congr 1; omega
  have h2 : (A &&& (m + 256 * M)) / 2 ^ 8 = A / 256 &&& M := by
    rw [Nat.and_div_two_pow]; congr 1; omega
  rw [← h1, ← h2]
  omega

theorem top_bit : ∀ x < 256, (x &&& 128 = 0 ↔ x < 128) := by decide +kernel

theorem rep_le (x : Nat) (hx : x < 256) : ∀ n, rep x n < 256 ^ n
  | 0 => by simp [rep]
  | n + 1 => by have := rep_le x hx n; rw [rep, Nat.pow_succ]; omega

/-- The test, for any number of bytes. -/
theorem rep_test : ∀ l : List Byte, ((leWord l + rep 0x46 l.length) % 256 ^ l.length &&& rep 0x80 l.length = 0 ∧
    (leWord l + 256 ^ l.length - rep 0x30 l.length) % 256 ^ l.length &&& rep 0x80 l.length = 0) ↔ ∀ c ∈ l, IsDigit c
  | [] => by simp [rep]
  | c :: l => by
    have ih := rep_test l
    have hc := c.toNat_lt
    have hk := rep_le 0x46 (by decide) l.length
    have ht := rep_le 0x30 (by decide) l.length
    rw [List.length_cons, rep, rep, rep, leWord, Nat.pow_succ, Nat.mul_comm (256 ^ l.length) 256, and_eq_zero_step _ _ _ (by decide),
      and_eq_zero_step _ _ _ (by decide)]
    rw [List.forall_mem_cons]
    rw [Nat.mod_mul, Nat.mod_mul]
    revert ih hk ht
    generalize rep 70 l.length = K
    generalize rep 48 l.length = T
    generalize rep 128 l.length = M
    generalize leWord l = V
    generalize 256 ^ l.length = W
    intro ih hk ht
    unfold IsDigit at *
    generalize c.toNat = d at *
    have low : ∀ a b : Nat, (a % 256 + 256 * b) % 256 = a % 256 := by intros; omega
    have high : ∀ a b : Nat, (a % 256 + 256 * b) / 256 = b := by intros; omega
    rw [low, low, high, high, top_bit _ (Nat.mod_lt _ (by decide)), top_bit _ (Nat.mod_lt _ (by decide))]
    by_cases hd : 48 ≤ d ∧ d ≤ 57
    · have e1 : (d + 256 * V + (70 + 256 * K)) / 256 = V + K := by omega
      have e2 : (d + 256 * V + 256 * W - (48 + 256 * T)) / 256 = V + W - T := by omega
      have e3 : (d + 256 * V + (70 + 256 * K)) % 256 < 128 := by omega
      have e4 : (d + 256 * V + 256 * W - (48 + 256 * T)) % 256 < 128 := by omega
      rw [e1, e2, ← ih]
      tauto
    · constructor
      · rintro ⟨⟨h1, -⟩, h2, -⟩; omega
      · rintro ⟨h, -⟩; exact absurd h hd

/-- `is_made_of_eight_digits_fast` is exact. -/
theorem isEight_iff {l : List Byte} (h : l.length = 8) : isEight (leWord l) = true ↔ ∀ c ∈ l, IsDigit c := by
  rw [← rep_test l, h]
  have : ∀ a b m : Nat, (a ||| b) &&& m = 0 ↔ a &&& m = 0 ∧ b &&& m = 0 := by
    intro a b m
    rw [Nat.and_or_distrib_right, Nat.or_eq_zero_iff]
  unfold isEight
  rw [decide_eq_true_iff, this]
  rfl

/-! ### The conversion -/

theorem mask_split (x : Nat) : x &&& 0x000000FF000000FF = x % 256 + 2 ^ 32 * (x / 2 ^ 32 % 256) := by
  have h1 : (x &&& 0x000000FF000000FF) % 2 ^ 32 = x % 256 := by
    rw [Nat.and_mod_two_pow, show (0x000000FF000000FF % 2 ^ 32 : Nat) = 2 ^ 8 - 1 from rfl, Nat.and_two_pow_sub_one_eq_mod]
    omega
  have h2 : (x &&& 0x000000FF000000FF) / 2 ^ 32 = x / 2 ^ 32 % 256 := by
    rw [Nat.and_div_two_pow, show (0x000000FF000000FF / 2 ^ 32 : Nat) = 2 ^ 8 - 1 from rfl, Nat.and_two_pow_sub_one_eq_mod]
  omega

/-- The bytes of a word. -/
theorem bytes_get {A B C D E F G H : Nat} (hA : A < 256) (hB : B < 256) (hC : C < 256) (hD : D < 256) (hE : E < 256) (hF : F < 256) (hG : G < 256)
    (X : Nat) (hX : X = A + 256 * (B + 256 * (C + 256 * (D + 256 * (E + 256 * (F + 256 * (G + 256 * H))))))) :
    X % 256 = A ∧ X / 2 ^ 16 % 256 = C ∧ X / 2 ^ 32 % 256 = E ∧ X / 2 ^ 16 / 2 ^ 32 % 256 = G := by
  generalize h1 : B + 256 * (C + 256 * (D + 256 * (E + 256 * (F + 256 * (G + 256 * H))))) = X1 at hX
  generalize h2 : C + 256 * (D + 256 * (E + 256 * (F + 256 * (G + 256 * H)))) = X2 at h1
  generalize h3 : D + 256 * (E + 256 * (F + 256 * (G + 256 * H))) = X3 at h2
  generalize h4 : E + 256 * (F + 256 * (G + 256 * H)) = X4 at h3
  generalize h5 : F + 256 * (G + 256 * H) = X5 at h4
  generalize h6 : G + 256 * H = X6 at h5
  have e2 : X / 2 ^ 16 = X2 := by omega
  have e4 : X2 / 2 ^ 16 = X4 := by omega
  have e6 : X4 / 2 ^ 16 = X6 := by omega
  have e4' : X / 2 ^ 32 = X4 := by omega
  have e6' : X2 / 2 ^ 32 = X6 := by omega
  rw [e2, e4', e6']
  refine ⟨?_, ?_, ?_, ?_⟩ <;> omega

theorem pairs_step {A C E G : Nat} (hA : A < 100) (hC : C < 100) (hE : E < 100) (hG : G < 100) :
    w64 (w64 ((A + 2 ^ 32 * E) * 0x000F424000000064) + w64 ((C + 2 ^ 32 * G) * 0x0000271000000001)) / 2 ^ 32 % 2 ^ 32 =
      1000000 * A + 10000 * C + 100 * E + G := by
  have m1 : (A + 2 ^ 32 * E) * 0x000F424000000064 = 100 * A + 2 ^ 32 * (1000000 * A + 100 * E) + 2 ^ 64 * (1000000 * E) := by ring
  have m2 : (C + 2 ^ 32 * G) * 0x0000271000000001 = C + 2 ^ 32 * (10000 * C + G) + 2 ^ 64 * (10000 * G) := by ring
  unfold w64
  rw [m1, m2, Nat.add_mul_mod_self_left, Nat.add_mul_mod_self_left, ← Nat.add_mod]
  have m3 : 100 * A + 2 ^ 32 * (1000000 * A + 100 * E) + (C + 2 ^ 32 * (10000 * C + G)) =
      100 * A + C + 2 ^ 32 * (1000000 * A + 10000 * C + 100 * E + G) := by ring
  rw [m3]
  have hL : 100 * A + C < 2 ^ 32 := by omega
  have hU : 1000000 * A + 10000 * C + 100 * E + G < 2 ^ 32 := by omega
  generalize 100 * A + C = L at *
  generalize 1000000 * A + 10000 * C + 100 * E + G = U at *
  clear m1 m2 m3
  rw [Nat.mod_eq_of_lt (show L + 2 ^ 32 * U < 2 ^ 64 by omega), show (L + 2 ^ 32 * U) / 2 ^ 32 = U by omega, Nat.mod_eq_of_lt hU]

theorem parseEight_steps {v X Z A C E G : Nat} (h1 : sub64 v 0x3030303030303030 = X) (h2 : w64 (w64 (X * 10) + X / 2 ^ 8) = Z) (q1 : Z % 256 = A)
    (q2 : Z / 2 ^ 16 % 256 = C) (q3 : Z / 2 ^ 32 % 256 = E) (q4 : Z / 2 ^ 16 / 2 ^ 32 % 256 = G) (hA : A < 100) (hC : C < 100) (hE : E < 100) (hG : G < 100) :
    parseEight v = 1000000 * A + 10000 * C + 100 * E + G := by
  unfold parseEight
  dsimp only
  rw [h1, Nat.shiftRight_eq_div_pow, Nat.shiftRight_eq_div_pow, Nat.shiftRight_eq_div_pow, h2, mask_split, mask_split, q1, q2, q3, q4, pairs_step hA hC hE hG]

theorem parseEight_eq {a b c d e f g h : Nat} (ha : a < 10) (hb : b < 10) (hc : c < 10) (hd : d < 10) (he : e < 10) (hf : f < 10) (hg : g < 10)
    (hh : h < 10) :
    parseEight ((48 + a) + 256 * ((48 + b) + 256 * ((48 + c) + 256 * ((48 + d) + 256 * ((48 + e) + 256 * ((48 + f) + 256 * ((48 + g) + 256 * (48 + h)))))))) =
      a * 10000000 + b * 1000000 + c * 100000 + d * 10000 + e * 1000 + f * 100 + g * 10 + h := by
  have e1 : sub64 ((48 + a) + 256 * ((48 + b) + 256 * ((48 + c) + 256 * ((48 + d) + 256 * ((48 + e) + 256 * ((48 + f) + 256 * ((48 + g) + 256 * (48 + h))))))))
      0x3030303030303030 = a + 256 * (b + 256 * (c + 256 * (d + 256 * (e + 256 * (f + 256 * (g + 256 * h)))))) := by
    unfold sub64; omega
  have e2 : w64 (w64 ((a + 256 * (b + 256 * (c + 256 * (d + 256 * (e + 256 * (f + 256 * (g + 256 * h))))))) * 10) +
      (a + 256 * (b + 256 * (c + 256 * (d + 256 * (e + 256 * (f + 256 * (g + 256 * h))))))) / 2 ^ 8) =
      (10 * a + b) + 256 * ((10 * b + c) + 256 * ((10 * c + d) + 256 * ((10 * d + e) + 256 * ((10 * e + f) + 256 * ((10 * f + g) + 256 * ((10 * g + h) + 256 * (10 * h))))))) := by
    unfold w64
    have h2 : (a + 256 * (b + 256 * (c + 256 * (d + 256 * (e + 256 * (f + 256 * (g + 256 * h))))))) / 2 ^ 8 =
      b + 256 * (c + 256 * (d + 256 * (e + 256 * (f + 256 * (g + 256 * h))))) := by omega
    rw [h2, Nat.mod_add_mod]
    have h3 : (a + 256 * (b + 256 * (c + 256 * (d + 256 * (e + 256 * (f + 256 * (g + 256 * h))))))) * 10 +
      (b + 256 * (c + 256 * (d + 256 * (e + 256 * (f + 256 * (g + 256 * h)))))) =
      (10 * a + b) + 256 * ((10 * b + c) + 256 * ((10 * c + d) + 256 * ((10 * d + e) + 256 * ((10 * e + f) + 256 * ((10 * f + g) + 256 * ((10 * g + h) + 256 * (10 * h))))))) := by ring
    rw [h3]
    clear h3 h2 e1
    refine Nat.mod_eq_of_lt ?_
    omega
  obtain ⟨q1, q2, q3, q4⟩ := bytes_get (A := 10 * a + b) (B := 10 * b + c) (C := 10 * c + d) (D := 10 * d + e) (E := 10 * e + f) (F := 10 * f + g)
    (G := 10 * g + h) (H := 10 * h) (by omega) (by omega) (by omega) (by omega) (by omega) (by omega) (by omega) _ rfl
  have hA : 10 * a + b < 100 := by clear e1 e2 q1 q2 q3 q4; omega
  have hC : 10 * c + d < 100 := by clear e1 e2 q1 q2 q3 q4; omega
  have hE : 10 * e + f < 100 := by clear e1 e2 q1 q2 q3 q4; omega
  have hG : 10 * g + h < 100 := by clear e1 e2 q1 q2 q3 q4; omega
  have key := parseEight_steps e1 e2 q1 q2 q3 q4 hA hC hE hG
  clear e1 e2 q1 q2 q3 q4
  rw [key]
  clear key
  omega

/-- `parse_eight_digits_unrolled` is exact on digits. -/
theorem parseEight_spec {l : List Byte} (h : l.length = 8) (hd : ∀ c ∈ l, IsDigit c) : parseEight (leWord l) = digitsValue l := by
  match l, h with
  | [a, b, c, d, e, f, g, h], _ =>
    simp only [List.forall_mem_cons, IsDigit] at hd
    obtain ⟨ha, hb, hc, hd, he, hf, hg, hh, -⟩ := hd
    have key := parseEight_eq (a := a.toNat - 48) (b := b.toNat - 48) (c := c.toNat - 48) (d := d.toNat - 48) (e := e.toNat - 48)
      (f := f.toNat - 48) (g := g.toNat - 48) (h := h.toNat - 48) (by omega) (by omega) (by omega) (by omega) (by omega) (by omega) (by omega) (by omega)
    have x : ∀ n, 48 ≤ n ∧ n ≤ 57 → 48 + (n - 48) = n := by intros; omega
    rw [x _ ha, x _ hb, x _ hc, x _ hd, x _ he, x _ hf, x _ hg, x _ hh] at key
    simp only [leWord, Nat.mul_zero, Nat.add_zero]
    rw [key]
    simp only [digitsValue, List.foldl]
    omega

/-! ### The loops -/

/-- The rest of the text does not go on with a digit. -/
def Stops (r : List Byte) : Prop := ∀ c ∈ r.head?, ¬IsDigit c

theorem readU64_some {s : List Byte} {p : Nat} {l r : List Byte} (hs : s.drop p = l ++ r) (hl : l.length = 8) : readU64 s p = some (leWord l) := by
  have : p + 8 ≤ s.length := by
    have := congrArg List.length hs
    rw [List.length_drop, List.length_append] at this; omega
  unfold readU64
  rw [chk_pos this, some_bind, hs, List.take_left' hl]; rfl

theorem wrap_step (i x v : Nat) : w64 (w64 (i % 2 ^ 64 * x) + v) = (i * x + v) % 2 ^ 64 := by
  unfold w64
  rw [Nat.mod_mul_mod, Nat.mod_add_mod]

theorem split8 {s : List Byte} {p : Nat} (h : s.length - p ≥ 8) : ∃ l r, s.drop p = l ++ r ∧ l.length = 8 ∧ s.drop (p + 8) = r := by
  refine ⟨(s.drop p).take 8, (s.drop p).drop 8, (List.take_append_drop 8 _).symm, ?_, ?_⟩
  · rw [List.length_take, List.length_drop]; omega
  · rw [List.drop_drop]

theorem eightLoop_spec {s : List Byte} : ∀ (f p i : Nat) (a r : List Byte), s.drop p = a ++ r → p ≤ s.length → (∀ c ∈ a, IsDigit c) → Stops r → a.length < f →
    ∃ a1 a2, a = a1 ++ a2 ∧ eightLoop s f p (i % 2 ^ 64) = some (p + a1.length, (i * 10 ^ a1.length + digitsValue a1) % 2 ^ 64)
  | 0, _, _, _, _, _, _, _, _, hf => by omega
  | f + 1, p, i, a, r, hs, hp, ha, hr, hf => by
    have stop : ∃ a1 a2, a = a1 ++ a2 ∧ some (p, i % 2 ^ 64) = some (p + a1.length, (i * 10 ^ a1.length + digitsValue a1) % 2 ^ 64) :=
      ⟨[], a, rfl, by simp [digitsValue]⟩
    rw [eightLoop]
    by_cases h8 : s.length - p ≥ 8
    · rw [if_pos h8]
      obtain ⟨l, t, hlt, hl, ht⟩ := split8 h8
      rw [readU64_some hlt hl, some_bind]
      by_cases hi : isEight (leWord l) = true
      · rw [if_pos hi, parseEight_spec hl ((isEight_iff hl).1 hi), wrap_step _ _]
        have hd := (isEight_iff hl).1 hi
        have hla : 8 ≤ a.length := by
          by_contra hc
          have : a ++ r = l ++ t := by rw [← hs, hlt]
          rcases List.append_eq_append_iff.1 this with ⟨x, hx, hrx⟩ | ⟨x, hx, -⟩
          · cases x with
            | nil => rw [List.append_nil] at hx; rw [hx] at hl; omega
            | cons y x =>
              refine hr y (by rw [hrx]; simp) (hd y (by rw [hx]; simp))
          · rw [hx, List.length_append] at hc; omega
        have e : a ++ r = l ++ t := by rw [← hs, hlt]
        have e1 : a = l ++ a.drop 8 := by
          have : a.take 8 = l := by
            have := congrArg (List.take 8) e
            rw [List.take_append_of_le_length hla, List.take_left' hl] at this; exact this
          rw [← this, List.take_append_drop]
        have e2 : s.drop (p + 8) = a.drop 8 ++ r := by
          rw [ht]
          have := congrArg (List.drop 8) e
          rw [List.drop_append_of_le_length hla, List.drop_left' hl] at this; exact this.symm
        obtain ⟨a1, a2, h1, h2⟩ := eightLoop_spec f (p + 8) (i * 100000000 + digitsValue l) (a.drop 8) r e2 (by omega)
          (fun c hc => ha c (List.mem_of_mem_drop hc)) hr (by rw [List.length_drop]; omega)
        refine ⟨l ++ a1, a2, by rw [List.append_assoc, ← h1, ← e1], ?_⟩
        rw [h2, List.length_append, hl, digitsValue_append, Nat.pow_add]
        congr 2
        · omega
        · congr 1; ring
      · rw [if_neg hi]; exact stop
    · rw [if_neg h8]; exact stop

theorem oneLoop_spec {s : List Byte} : ∀ (f p i : Nat) (a r : List Byte), s.drop p = a ++ r → p ≤ s.length → (∀ c ∈ a, IsDigit c) → Stops r → a.length < f →
    oneLoop s f p (i % 2 ^ 64) = some (p + a.length, (i * 10 ^ a.length + digitsValue a) % 2 ^ 64)
  | 0, _, _, _, _, _, _, _, _, hf => by omega
  | f + 1, p, i, [], r, hs, hp, ha, hr, hf => by
    rw [oneLoop]
    have e : (p + ([] : List Byte).length, (i * 10 ^ ([] : List Byte).length + digitsValue []) % 2 ^ 64) = (p, i % 2 ^ 64) := by simp [digitsValue]
    rw [e]
    cases r with
    | nil =>
      rw [if_neg]; · rfl
      have := congrArg List.length hs
      rw [List.length_drop] at this; simp at this; simp; omega
    | cons c r =>
      obtain ⟨h1, h2, -⟩ := Nanostl.Ryu.drop_get (r := r) hs
      rw [if_pos (by omega), h2, some_bind, if_neg]
      · rfl
      · rw [isInteger_iff]; exact hr c rfl
  | f + 1, p, i, c :: a, r, hs, hp, ha, hr, hf => by
    obtain ⟨h1, h2, h3⟩ := Nanostl.Ryu.drop_get (r := a ++ r) hs
    rw [oneLoop, if_pos (by omega), h2, some_bind, if_pos (isInteger_iff.2 (ha c List.mem_cons_self)), Nat.mul_comm 10, wrap_step _ _,
      oneLoop_spec f (p + 1) _ a r h3 (by omega) (fun d hd => ha d (List.mem_cons_of_mem _ hd)) hr (by rw [List.length_cons] at hf; omega)]
    rw [List.length_cons, digitsValue_cons, Nat.pow_succ]
    congr 2
    · omega
    · congr 1; ring

/-- The loops over digits read the longest run of digits. -/
theorem digitLoops_spec {s : List Byte} {p : Nat} (i : Nat) {a r : List Byte} (hs : s.drop p = a ++ r) (hp : p ≤ s.length) (ha : ∀ c ∈ a, IsDigit c) (hr : Stops r) :
    digitLoops s p (i % 2 ^ 64) = some (p + a.length, (i * 10 ^ a.length + digitsValue a) % 2 ^ 64) := by
  have hl := congrArg List.length hs
  rw [List.length_drop, List.length_append] at hl
  obtain ⟨a1, a2, h1, h2⟩ := eightLoop_spec (s.length + 1) p i a r hs hp ha hr (by omega)
  unfold digitLoops
  rw [h2, some_bind]
  have e : s.drop (p + a1.length) = a2 ++ r := by
    rw [← List.drop_drop, hs, h1, List.append_assoc, List.drop_left]
  have : a.length = a1.length + a2.length := by rw [h1, List.length_append]
  dsimp only
  rw [oneLoop_spec _ _ _ a2 r e (by omega) (fun c hc => ha c (by rw [h1]; exact List.mem_append_right _ hc)) hr (by omega)]
  rw [h1, List.length_append, digitsValue_append, Nat.pow_add]
  congr 2
  · omega
  · congr 1; ring

/-- Every text splits into a run of digits and what follows. -/
theorem run_exists (s : List Byte) : ∃ a r, s = a ++ r ∧ (∀ c ∈ a, IsDigit c) ∧ Stops r := by
  induction s with
  | nil => exact ⟨[], [], rfl, by simp, by simp [Stops]⟩
  | cons c s ih =>
    by_cases hc : IsDigit c
    · obtain ⟨a, r, h1, h2, h3⟩ := ih
      exact ⟨c :: a, r, by rw [h1]; rfl, by simpa using ⟨hc, h2⟩, h3⟩
    · exact ⟨[], c :: s, rfl, by simp, by simpa [Stops] using hc⟩

end Nanostl.FastFloat
