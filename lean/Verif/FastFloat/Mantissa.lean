import Verif.FastFloat.Parse
import Verif.FastFloat.DigitComp

/-!
`scientific_exponent` and `parse_mantissa`: the number of digits before the point and the digits as a big integer.
-/

namespace Nanostl.FastFloat
open Nanostl.Float
open Nanostl.Str (Byte digitsValue)
open Nanostl.Ryu (w64 sub64 chk IsDigit digitsValue_cons digitsValue_snoc digitsValue_lt sigLen sigLen_bounds sigLen_append_pos sigLen_append_zero sigLen_zero_iff
  chk_pos some_bind drop_get)

variable [Limb]

/-! ### `scientific_exponent` -/

omit [Limb] in
theorem sciLoop_spec {k : Nat} (hk : 0 < k) : ∀ (f j m : Nat) (e : Int), 10 ^ j ≤ m → m < 10 ^ (j + 1) → j < f →
    ∃ (m' : Nat) (e' : Int) (j' : Nat), sciLoop (10 ^ k) k f m e = some (m', e') ∧ 10 ^ j' ≤ m' ∧ m' < 10 ^ (j' + 1) ∧ e' + j' = e + j ∧ j' < k ∧ j' ≤ j
  | 0, _, _, _, _, _, hf => by omega
  | f + 1, j, m, e, h1, h2, hf => by
    rw [sciLoop]
    by_cases h : m ≥ 10 ^ k
    · rw [if_pos h]
      have hkj : k ≤ j := by
        have := (Nat.pow_lt_pow_iff_right (by decide : 1 < 10)).1 (lt_of_le_of_lt h h2)
        omega
      have e1 : 10 ^ j = 10 ^ (j - k) * 10 ^ k := by rw [← Nat.pow_add]; congr 1; omega
      have e2 : 10 ^ (j + 1) = 10 ^ (j - k + 1) * 10 ^ k := by rw [← Nat.pow_add]; congr 1; omega
      have hp : 0 < 10 ^ k := Nat.pow_pos (by decide)
      obtain ⟨m', e', j', q1, q2, q3, q4, q5, q6⟩ := sciLoop_spec hk f (j - k) (m / 10 ^ k) (e + k) ((Nat.le_div_iff_mul_le hp).2 (by omega))
        ((Nat.div_lt_iff_lt_mul hp).2 (by omega)) (by omega)
      exact ⟨m', e', j', q1, q2, q3, by omega, q5, by omega⟩
    · rw [if_neg h]
      refine ⟨m, e, j, rfl, h1, h2, rfl, ?_, le_refl _⟩
      exact (Nat.pow_lt_pow_iff_right (by decide : 1 < 10)).1 (lt_of_le_of_lt h1 (by omega))

omit [Limb] in
theorem scientificExponent_spec {pns : PNS} {j : Nat} (h1 : 10 ^ j ≤ pns.mantissa) (h2 : pns.mantissa < 10 ^ (j + 1)) (hj : j < 64) (e1 : -2 ^ 31 ≤ pns.exponent)
    (e2 : pns.exponent < 2 ^ 31) : scientificExponent pns = some (pns.exponent + j) := by
  have hi : i32 pns.exponent = pns.exponent := by unfold i32; omega
  obtain ⟨m1, x1, j1, a1, a2, a3, a4, a5, a6⟩ := sciLoop_spec (k := 4) (by decide) 64 j _ (i32 pns.exponent) h1 h2 hj
  obtain ⟨m2, x2, j2, b1, b2, b3, b4, b5, b6⟩ := sciLoop_spec (k := 2) (by decide) 64 j1 _ x1 a2 a3 (by omega)
  obtain ⟨m3, x3, j3, c1, c2, c3, c4, c5, c6⟩ := sciLoop_spec (k := 1) (by decide) 64 j2 _ x2 b2 b3 (by omega)
  unfold scientificExponent
  rw [show (10000 : Nat) = 10 ^ 4 from rfl, a1, some_bind, show (100 : Nat) = 10 ^ 2 from rfl]
  dsimp only
  rw [b1, some_bind]
  dsimp only
  rw [show sciLoop 10 1 64 m2 x2 = some (m3, x3) from c1, some_bind]
  show some x3 = _
  congr 1; omega

/-! ### Zeros -/

omit [Limb] in
theorem leWord_zeros : ∀ l : List Byte, leWord l = rep 48 l.length ↔ ∀ c ∈ l, c = 48
  | [] => by simp [leWord, rep]
  | c :: l => by
    have ih := leWord_zeros l
    have hc := c.toNat_lt
    rw [List.forall_mem_cons, leWord, List.length_cons, rep, ← ih, ← UInt8.toNat_inj]
    show _ ↔ c.toNat = 48 ∧ _
    omega

omit [Limb] in
theorem take8 {s l r : List Byte} {p : Nat} (hs : s.drop p = l ++ r) (h8 : 8 ≤ l.length) :
    readU64 s p = some (leWord (l.take 8)) ∧ (l.take 8).length = 8 ∧ s.drop (p + 8) = l.drop 8 ++ r := by
  have h1 : (l.take 8).length = 8 := by rw [List.length_take]; omega
  refine ⟨readU64_some (r := l.drop 8 ++ r) ?_ h1, h1, ?_⟩
  · rw [hs, ← List.append_assoc, List.take_append_drop]
  · rw [← List.drop_drop, hs, List.drop_append_of_le_length h8]

omit [Limb] in
theorem zeros_iff {l : List Byte} (h : l.length = 8) : leWord l = 0x3030303030303030 ↔ ∀ c ∈ l, c = 48 := by
  rw [← leWord_zeros, h]; rfl

omit [Limb] in
theorem skipEight_spec {s : List Byte} : ∀ (f p : Nat) (l r : List Byte), s.drop p = l ++ r → l.length < f →
    ∃ z l', l = z ++ l' ∧ (∀ c ∈ z, c = 48) ∧ skipEight s (p + l.length) f p = some (p + z.length)
  | 0, _, _, _, _, hf => by omega
  | f + 1, p, l, r, hs, hf => by
    have stop : ∃ z l', l = z ++ l' ∧ (∀ c ∈ z, c = 48) ∧ some p = some (p + z.length) := ⟨[], l, rfl, by simp, rfl⟩
    rw [skipEight, Nat.add_sub_cancel_left]
    by_cases h8 : l.length ≥ 8
    · obtain ⟨t1, t2, t3⟩ := take8 hs h8
      rw [if_pos h8, t1, some_bind]
      by_cases hz : leWord (l.take 8) = 0x3030303030303030
      · rw [if_neg (by simpa using hz)]
        obtain ⟨z, l', q1, q2, q3⟩ := skipEight_spec f (p + 8) (l.drop 8) r t3 (by rw [List.length_drop]; omega)
        refine ⟨l.take 8 ++ z, l', by rw [List.append_assoc, ← q1, List.take_append_drop], ?_, ?_⟩
        · intro c hc
          rcases List.mem_append.1 hc with hc | hc
          · exact (zeros_iff t2).1 hz c hc
          · exact q2 c hc
        · rw [List.length_drop, show p + 8 + (l.length - 8) = p + l.length by omega] at q3
          rw [q3, List.length_append, t2]; congr 1; omega
      · rw [if_pos hz]; exact stop
    · rw [if_neg h8]; exact stop

omit [Limb] in
theorem skipOne_spec {s : List Byte} : ∀ (z : List Byte) (f p : Nat) (d r : List Byte), s.drop p = z ++ d ++ r → (∀ c ∈ z, c = 48) → (∀ c ∈ d.head?, c ≠ 48) → z.length < f →
    skipOne s (p + (z ++ d).length) f p = some (p + z.length)
  | _, 0, _, _, _, _, _, _, hf => by omega
  | [], f + 1, p, d, r, hs, hz, hd, hf => by
    rw [skipOne]
    cases d with
    | nil => rw [if_neg (by simp)]; rfl
    | cons c d =>
      obtain ⟨h1, h2, -⟩ := drop_get (r := d ++ r) hs
      rw [if_pos (by simp), h2, some_bind, if_pos (hd c rfl)]; rfl
  | c :: z, f + 1, p, d, r, hs, hz, hd, hf => by
    obtain ⟨h1, h2, h3⟩ := drop_get (r := z ++ d ++ r) hs
    rw [skipOne, if_pos (by simp), h2, some_bind, if_neg (by simpa using hz c List.mem_cons_self)]
    have := skipOne_spec z f (p + 1) d r h3 (fun x hx => hz x (List.mem_cons_of_mem _ hx)) hd (by rw [List.length_cons] at hf; omega)
    rw [List.cons_append, List.length_cons, List.length_cons, show p + ((z ++ d).length + 1) = p + 1 + (z ++ d).length by omega, this]
    congr 1; omega

omit [Limb] in
/-- `skip_zeros`. -/
theorem skipZeros_spec {s z d r : List Byte} {p : Nat} (hs : s.drop p = z ++ d ++ r) (hz : ∀ c ∈ z, c = 48) (hd : ∀ c ∈ d.head?, c ≠ 48) :
    skipZeros s p (p + (z ++ d).length) = some (p + z.length) := by
  have hlen := congrArg List.length hs
  rw [List.length_drop, List.length_append, List.length_append] at hlen
  obtain ⟨y, l', q1, q2, q3⟩ := skipEight_spec (s.length + 1) p (z ++ d) r hs (by rw [List.length_append]; omega)
  unfold skipZeros
  rw [q3, some_bind]
  -- `y` lies within `z`
  obtain ⟨z', rfl, rfl⟩ : ∃ z', z = y ++ z' ∧ l' = z' ++ d := by
    rcases List.append_eq_append_iff.1 q1 with ⟨x, hx, hdx⟩ | ⟨x, hx, hdx⟩
    · cases x with
      | nil => exact ⟨[], by simpa using hx.symm, by simpa using hdx.symm⟩
      | cons c x => exact absurd (q2 c (by rw [hx]; simp)) (hd c (by rw [hdx]; rfl))
    · exact ⟨x, hx, hdx⟩
  have hs' : s.drop (p + y.length) = z' ++ d ++ r := by
    rw [← List.drop_drop, hs, List.append_assoc, List.append_assoc, List.drop_left, List.append_assoc]
  have := skipOne_spec z' (s.length + 1) (p + y.length) d r hs' (fun c hc => hz c (List.mem_append_right _ hc)) hd (by rw [List.length_append] at hlen; omega)
  rw [show p + y.length + (z' ++ d).length = p + (y ++ z' ++ d).length by simp; omega] at this
  rw [this, List.length_append]; congr 1; omega

omit [Limb] in
theorem truncEight_spec {s : List Byte} : ∀ (f p : Nat) (l r : List Byte), s.drop p = l ++ r → l.length < f →
    (truncEight s (p + l.length) f p = some none ∧ ∃ c ∈ l, c ≠ 48) ∨
    ∃ z l', l = z ++ l' ∧ (∀ c ∈ z, c = 48) ∧ truncEight s (p + l.length) f p = some (some (p + z.length))
  | 0, _, _, _, _, hf => by omega
  | f + 1, p, l, r, hs, hf => by
    rw [truncEight, Nat.add_sub_cancel_left]
    by_cases h8 : l.length ≥ 8
    · obtain ⟨t1, t2, t3⟩ := take8 hs h8
      rw [if_pos h8, t1, some_bind]
      by_cases hz : leWord (l.take 8) = 0x3030303030303030
      · rw [if_neg (by simpa using hz)]
        have ih := truncEight_spec f (p + 8) (l.drop 8) r t3 (by rw [List.length_drop]; omega)
        rw [List.length_drop, show p + 8 + (l.length - 8) = p + l.length by omega] at ih
        rcases ih with ⟨h1, c, hc, hc'⟩ | ⟨z, l', q1, q2, q3⟩
        · exact Or.inl ⟨h1, c, List.mem_of_mem_drop hc, hc'⟩
        · right
          refine ⟨l.take 8 ++ z, l', by rw [List.append_assoc, ← q1, List.take_append_drop], ?_, ?_⟩
          · intro c hc
            rcases List.mem_append.1 hc with hc | hc
            · exact (zeros_iff t2).1 hz c hc
            · exact q2 c hc
          · rw [q3, List.length_append, t2]; congr 2; omega
      · rw [if_pos hz]
        left
        refine ⟨rfl, ?_⟩
        by_contra hc
        push Not at hc
        exact hz ((zeros_iff t2).2 fun c h => hc c (List.mem_of_mem_take h))
    · rw [if_neg h8]; exact Or.inr ⟨[], l, rfl, by simp, rfl⟩

omit [Limb] in
theorem truncOne_spec {s : List Byte} : ∀ (l : List Byte) (f p : Nat) (r : List Byte), s.drop p = l ++ r → l.length < f →
    ∃ t, truncOne s (p + l.length) f p = some t ∧ (t = true ↔ ∃ c ∈ l, c ≠ 48)
  | _, 0, _, _, _, hf => by omega
  | [], f + 1, p, r, hs, hf => by
    rw [truncOne, if_neg (by simp)]; exact ⟨false, rfl, by simp⟩
  | c :: l, f + 1, p, r, hs, hf => by
    obtain ⟨h1, h2, h3⟩ := drop_get (r := l ++ r) hs
    rw [truncOne, if_pos (by simp), h2, some_bind]
    by_cases hc : c ≠ 48
    · rw [if_pos hc]; exact ⟨true, rfl, by simp [hc]⟩
    · rw [if_neg hc]
      obtain ⟨t, q1, q2⟩ := truncOne_spec l f (p + 1) r h3 (by rw [List.length_cons] at hf; omega)
      refine ⟨t, ?_, ?_⟩
      · rw [List.length_cons, show p + (l.length + 1) = p + 1 + l.length by omega, q1]
      · rw [q2]; simp at hc; simp [hc]

omit [Limb] in
/-- `is_truncated`. -/
theorem isTruncated_spec {s l r : List Byte} {p : Nat} (hs : s.drop p = l ++ r) : ∃ t, isTruncated s p (p + l.length) = some t ∧ (t = true ↔ ∃ c ∈ l, c ≠ 48) := by
  have hlen := congrArg List.length hs
  rw [List.length_drop, List.length_append] at hlen
  unfold isTruncated
  rcases truncEight_spec (s.length + 1) p l r hs (by omega) with ⟨h1, h2⟩ | ⟨z, l', rfl, q2, q3⟩
  · rw [h1, some_bind]; exact ⟨true, rfl, by simpa using h2⟩
  · rw [q3, some_bind]
    have hs' : s.drop (p + z.length) = l' ++ r := by rw [← List.drop_drop, hs, List.append_assoc, List.drop_left]
    obtain ⟨t, t1, t2⟩ := truncOne_spec l' (s.length + 1) (p + z.length) r hs' (by rw [List.length_append] at hlen; omega)
    refine ⟨t, ?_, ?_⟩
    · dsimp only
      rw [show p + (z ++ l').length = p + z.length + l'.length by rw [List.length_append]; omega, t1]
    · rw [t2]
      constructor
      · rintro ⟨c, hc, h⟩; exact ⟨c, List.mem_append_right _ hc, h⟩
      · rintro ⟨c, hc, h⟩
        rcases List.mem_append.1 hc with hc | hc
        · exact absurd (q2 c hc) h
        · exact ⟨c, hc, h⟩

/-! ### Chunks -/

theorem digitStep_le : 0 < digitStep ∧ digitStep ≤ 19 ∧ 10 ^ digitStep < 2 ^ limbBits := by
  rename_i L
  obtain ⟨b⟩ := L
  cases b <;> decide +kernel

theorem val_step {u : List Byte} (hu : ∀ c ∈ u, IsDigit c) (h : u.length ≤ digitStep) : digitsValue u < 2 ^ limbBits :=
  lt_trans (lt_of_lt_of_le (digitsValue_lt u hu) (Nat.pow_le_pow_right (by decide) h)) digitStep_le.2.2

theorem chunkEight_spec {s : List Byte} {maxD : Nat} : ∀ (f : Nat) (u l r : List Byte) (p n : Nat), s.drop p = l ++ r → (∀ c ∈ u ++ l, IsDigit c) → u.length ≤ digitStep → n ≤ maxD →
    digitStep < u.length + 8 * f →
    ∃ v l', l = v ++ l' ∧ chunkEight s (p + l.length) maxD f ⟨p, digitsValue u, u.length, n⟩ = some ⟨p + v.length, digitsValue (u ++ v), (u ++ v).length, n + v.length⟩ ∧
      (u ++ v).length ≤ digitStep ∧ n + v.length ≤ maxD
  | 0, u, _, _, _, _, _, _, h, _, hf => by omega
  | f + 1, u, l, r, p, n, hs, hd, hu, hn, hf => by
    rw [chunkEight]
    dsimp only
    by_cases h : p + l.length - p ≥ 8 ∧ digitStep - u.length ≥ 8 ∧ maxD - n ≥ 8
    · rw [if_pos h]
      obtain ⟨t1, t2, t3⟩ := take8 hs (by omega)
      have hd8 : ∀ c ∈ l.take 8, IsDigit c := fun c hc => hd c (List.mem_append_right _ (List.mem_of_mem_take hc))
      rw [t1, some_bind, parseEight_spec t2 hd8]
      have hdu : ∀ c ∈ u ++ l.take 8, IsDigit c := by
        intro c hc
        rcases List.mem_append.1 hc with hc | hc
        · exact hd c (List.mem_append_left _ hc)
        · exact hd8 c hc
      have hlu : (u ++ l.take 8).length = u.length + 8 := by rw [List.length_append, t2]
      have hval : wl (wl (digitsValue u * 100000000) + digitsValue (l.take 8)) = digitsValue (u ++ l.take 8) := by
        have h1 := val_step hdu (by omega)
        have h2 : digitsValue (u ++ l.take 8) = digitsValue u * 100000000 + digitsValue (l.take 8) := by rw [digitsValue_append, t2, show (10 : Nat) ^ 8 = 100000000 from rfl]
        unfold wl
        rw [h2] at h1 ⊢
        rw [Nat.mod_eq_of_lt (lt_of_le_of_lt (Nat.le_add_right _ _) h1), Nat.mod_eq_of_lt h1]
      obtain ⟨v, l', q1, q2, q3, q4⟩ := chunkEight_spec (maxD := maxD) f (u ++ l.take 8) (l.drop 8) r (p + 8) (n + 8) t3
        (by rw [List.append_assoc, List.take_append_drop]; exact hd) (by omega) (by omega) (by omega)
      refine ⟨l.take 8 ++ v, l', by rw [List.append_assoc, ← q1, List.take_append_drop], ?_, by rw [← List.append_assoc]; exact q3, by rw [List.length_append, t2]; omega⟩
      rw [hlu, List.length_drop, show p + 8 + (l.length - 8) = p + l.length by omega] at q2
      rw [hval, q2, List.append_assoc]
      simp only [List.length_append, t2, Option.some.injEq, Chunk.mk.injEq, true_and]
      omega
    · rw [if_neg h]
      refine ⟨[], l, rfl, ?_, by simpa using hu, by simpa using hn⟩
      simp

theorem chunkOne_spec {s : List Byte} {maxD : Nat} : ∀ (f : Nat) (u l r : List Byte) (p n : Nat), s.drop p = l ++ r → (∀ c ∈ u ++ l, IsDigit c) → u.length ≤ digitStep → n ≤ maxD →
    digitStep < u.length + f →
    ∃ v l', l = v ++ l' ∧ chunkOne s (p + l.length) maxD f ⟨p, digitsValue u, u.length, n⟩ = some ⟨p + v.length, digitsValue (u ++ v), (u ++ v).length, n + v.length⟩ ∧
      (u ++ v).length ≤ digitStep ∧ n + v.length ≤ maxD ∧ (u = [] → l ≠ [] → n < maxD → v ≠ [])
  | 0, u, _, _, _, _, _, _, h, _, hf => by omega
  | f + 1, u, [], r, p, n, hs, hd, hu, hn, hf => by
    rw [chunkOne, if_neg (by simp)]
    exact ⟨[], [], rfl, by simp, by simpa using hu, by simpa using hn, fun _ h => absurd rfl h⟩
  | f + 1, u, c :: l, r, p, n, hs, hd, hu, hn, hf => by
    rw [chunkOne]
    dsimp only
    by_cases h : u.length < digitStep ∧ p ≠ p + (c :: l).length ∧ n < maxD
    · rw [if_pos h]
      obtain ⟨h1, h2, h3⟩ := drop_get (r := l ++ r) hs
      rw [h2, some_bind]
      have hdu : ∀ x ∈ u ++ [c], IsDigit x := by
        intro x hx
        refine hd x ?_
        rcases List.mem_append.1 hx with hx | hx
        · exact List.mem_append_left _ hx
        · rw [List.mem_singleton] at hx; rw [hx]; simp
      have hlu : (u ++ [c]).length = u.length + 1 := by simp
      have hval : wl (wl (digitsValue u * 10) + (c.toNat - 48)) = digitsValue (u ++ [c]) := by
        have h1 := val_step hdu (by omega)
        rw [digitsValue_snoc] at h1 ⊢
        unfold wl
        rw [Nat.mod_eq_of_lt (a := digitsValue u * 10) (by omega), Nat.mul_comm (digitsValue u) 10, Nat.mod_eq_of_lt h1]
      obtain ⟨v, l', q1, q2, q3, q4, -⟩ := chunkOne_spec (maxD := maxD) f (u ++ [c]) l r (p + 1) (n + 1) h3 (by simpa using hd) (by omega) (by omega) (by omega)
      refine ⟨c :: v, l', by rw [q1]; rfl, ?_, by simpa using q3, by rw [List.length_cons]; omega, fun _ _ _ => by simp⟩
      rw [hlu, show p + 1 + l.length = p + (c :: l).length by rw [List.length_cons]; omega] at q2
      rw [hval, q2]
      simp only [List.length_append, List.length_cons, List.append_assoc, Option.some.injEq, Chunk.mk.injEq, true_and, List.cons_append, List.nil_append]
      omega
    · rw [if_neg h]
      refine ⟨[], c :: l, rfl, by simp, by simpa using hu, by simpa using hn, ?_⟩
      rintro rfl - hlt
      exact absurd ⟨digitStep_le.1, by simp, hlt⟩ h

omit [Limb] in
theorem powersOfTenU64_get : ∀ c ≤ 19, powersOfTenU64[c]? = some (10 ^ c) := by decide +kernel

theorem addNative_spec {v : Limbs} {n p x : Nat} (h : Big v n) (hp : 0 < p) (hp' : p < 2 ^ limbBits) (hx : x < 2 ^ limbBits) (hn : n * p + x < cap) : Big (addNative v p x) (n * p + x) := by
  obtain ⟨v1, a1, b1⟩ := smallMul_spec h hp hp' (by omega)
  obtain ⟨v2, a2, b2⟩ := smallAdd_spec b1 hx hn
  unfold addNative
  rw [a1, a2]
  exact b2

theorem ten_lt_limb : 10 < 2 ^ limbBits := by rcases limbBits_cases with ⟨h, -⟩ | ⟨h, -⟩ <;> rw [h] <;> decide

theorem ten770 : 10 ^ 770 < cap := by
  exact lt_of_lt_of_le (by decide +kernel) cap_ge

/-! ### One span -/

theorem spanLoop_spec {s : List Byte} {maxD : Nat} (hM : maxD ≤ 769) {tm : Bool} : ∀ (f : Nat) (pre l r : List Byte) (p : Nat) (big : Limbs), s.drop p = l ++ r →
    (∀ c ∈ pre ++ l, IsDigit c) → pre.length < maxD → Big big (digitsValue pre) → l.length < f →
    (pre.length + l.length < maxD → ∃ big', spanLoop s (p + l.length) maxD (some tm) f p ⟨big, 0, 0, pre.length, false⟩ = some ⟨big', 0, 0, pre.length + l.length, false⟩ ∧
      Big big' (digitsValue (pre ++ l))) ∧
    (maxD ≤ pre.length + l.length → ∃ u l' big' c v, l = u ++ l' ∧ pre.length + u.length = maxD ∧
      (((∃ c ∈ l', c ≠ 48) ∨ tm = true) → spanLoop s (p + l.length) maxD (some tm) f p ⟨big, 0, 0, pre.length, false⟩ = some ⟨big', c, v, maxD + 1, true⟩ ∧
        Big big' (10 * digitsValue (pre ++ u) + 1)) ∧
      (¬((∃ c ∈ l', c ≠ 48) ∨ tm = true) → spanLoop s (p + l.length) maxD (some tm) f p ⟨big, 0, 0, pre.length, false⟩ = some ⟨big', c, v, maxD, true⟩ ∧
        Big big' (digitsValue (pre ++ u))))
  | 0, _, _, _, _, _, _, _, _, _, hf => by omega
  | f + 1, pre, [], r, p, big, hs, hd, hp, hb, hf => by
    refine ⟨fun _ => ⟨big, ?_, by simpa using hb⟩, fun h => by simp at h; omega⟩
    rw [spanLoop, if_neg (by simp)]; rfl
  | f + 1, pre, c :: l, r, p, big, hs, hd, hp, hb, hf => by
    have hst := digitStep_le
    have hdl : ∀ x ∈ c :: l, IsDigit x := fun x hx => hd x (List.mem_append_right _ hx)
    obtain ⟨v, l1, a1, a2, a3, a4⟩ := chunkEight_spec (s := s) (maxD := maxD) 4 [] (c :: l) r p pre.length hs (by simpa using hdl) (by simp) hp.le (by simp; omega)
    rw [List.nil_append] at a2 a3
    have hs1 : s.drop (p + v.length) = l1 ++ r := by rw [← List.drop_drop, hs, a1, List.append_assoc, List.drop_left]
    have hl1 : (c :: l).length = v.length + l1.length := by rw [a1, List.length_append]
    obtain ⟨w, l2, b1, b2, b3, b4, b5⟩ := chunkOne_spec (s := s) (maxD := maxD) 20 v l1 r (p + v.length) (pre.length + v.length) hs1 (by rw [← a1]; exact hdl) a3 a4 (by omega)
    have hne : v ++ w ≠ [] := by
      intro h
      rw [List.append_eq_nil_iff] at h
      obtain ⟨h1, h2⟩ := h
      refine b5 h1 ?_ (by rw [h1]; simpa using hp) h2
      rintro rfl
      rw [h1] at a1; simp at a1
    have hsplit : c :: l = (v ++ w) ++ l2 := by rw [a1, b1, List.append_assoc]
    have hlen : (c :: l).length = (v ++ w).length + l2.length := by rw [hsplit, List.length_append]
    have hpos : 0 < (v ++ w).length := List.length_pos_iff.2 hne
    have hs2 : s.drop (p + v.length + w.length) = l2 ++ r := by rw [← List.drop_drop, hs1, b1, List.append_assoc, List.drop_left]
    have hdw : ∀ x ∈ pre ++ (v ++ w), IsDigit x := by
      intro x hx
      refine hd x ?_
      rw [hsplit]
      rcases List.mem_append.1 hx with hx | hx
      · exact List.mem_append_left _ hx
      · exact List.mem_append_right _ (List.mem_append_left _ hx)
    have hvw : ∀ x ∈ v ++ w, IsDigit x := fun x hx => hdw x (List.mem_append_right _ hx)
    have hval : digitsValue pre * 10 ^ (v ++ w).length + digitsValue (v ++ w) = digitsValue (pre ++ (v ++ w)) := (digitsValue_append _ _).symm
    have hlt : digitsValue (pre ++ (v ++ w)) < 10 ^ maxD := by
      refine lt_of_lt_of_le (digitsValue_lt _ hdw) (Nat.pow_le_pow_right (by decide) ?_)
      rw [List.length_append, List.length_append]; omega
    have h769 : 10 ^ maxD ≤ 10 ^ 769 := Nat.pow_le_pow_right (by decide) hM
    have hcap := ten770
    have h70 : 10 ^ 770 = 10 * 10 ^ 769 := by rw [Nat.pow_succ, Nat.mul_comm]
    have hpow : 10 ^ (v ++ w).length < 2 ^ limbBits := lt_of_le_of_lt (Nat.pow_le_pow_right (by decide) b3) hst.2.2
    have hbig : Big (addNative big (10 ^ (v ++ w).length) (digitsValue (v ++ w))) (digitsValue (pre ++ (v ++ w))) := by
      rw [← hval]
      refine addNative_spec hb (Nat.pow_pos (by decide)) ?_ ?_ (by rw [hval]; omega)
      · exact hpow
      · exact val_step hvw b3
    have run : spanLoop s (p + (c :: l).length) maxD (some tm) (f + 1) p ⟨big, 0, 0, pre.length, false⟩ =
        if pre.length + (v ++ w).length = maxD then (isTruncated s (p + v.length + w.length) (p + (c :: l).length)).bind fun t =>
          if (t || tm) = true then
            some ⟨addNative (addNative big (10 ^ (v ++ w).length) (digitsValue (v ++ w))) 10 1, (v ++ w).length, digitsValue (v ++ w), pre.length + (v ++ w).length + 1, true⟩
          else some ⟨addNative big (10 ^ (v ++ w).length) (digitsValue (v ++ w)), (v ++ w).length, digitsValue (v ++ w), pre.length + (v ++ w).length, true⟩
        else spanLoop s (p + (c :: l).length) maxD (some tm) f (p + v.length + w.length)
          ⟨addNative big (10 ^ (v ++ w).length) (digitsValue (v ++ w)), 0, 0, pre.length + (v ++ w).length, false⟩ := by
      rw [spanLoop, if_pos (by simp)]
      dsimp only
      have a2' : chunkEight s (p + (c :: l).length) maxD 4 ⟨p, 0, 0, pre.length⟩ = some ⟨p + v.length, digitsValue v, v.length, pre.length + v.length⟩ := a2
      rw [hl1, ← Nat.add_assoc] at a2' ⊢
      rw [a2', some_bind, b2, some_bind]
      dsimp only
      rw [powersOfTenU64_get _ (le_trans b3 hst.2.1), some_bind, wl, Nat.mod_eq_of_lt hpow, Nat.add_assoc pre.length, ← List.length_append]
      by_cases hm : pre.length + (v ++ w).length = maxD
      · rw [if_pos hm, if_pos hm]
        rfl
      · rw [if_neg hm, if_neg hm]
    rw [run]
    by_cases hm : pre.length + (v ++ w).length = maxD
    · refine ⟨fun h => by omega, fun _ => ?_⟩
      obtain ⟨t, t1, t2⟩ := isTruncated_spec hs2
      rw [show p + v.length + w.length + l2.length = p + (c :: l).length by rw [hlen, List.length_append]; omega] at t1
      rw [if_pos hm, t1, Option.bind_some]
      by_cases ht : (∃ c ∈ l2, c ≠ 48) ∨ tm = true
      · have ht' : (t || tm) = true := by rw [Bool.or_eq_true, t2]; exact ht
        rw [if_pos ht', hm]
        refine ⟨v ++ w, l2, _, _, _, hsplit, hm, fun _ => ⟨rfl, ?_⟩, fun h => absurd ht h⟩
        rw [Nat.mul_comm 10]
        exact addNative_spec hbig (by decide) ten_lt_limb one_lt_limb (by omega)
      · have ht' : ¬(t || tm) = true := by rw [Bool.or_eq_true, t2]; exact ht
        rw [if_neg ht', hm]
        exact ⟨v ++ w, l2, _, _, _, hsplit, hm, fun h => absurd h ht, fun _ => ⟨rfl, hbig⟩⟩
    · rw [if_neg hm]
      have hvl : (v ++ w).length = v.length + w.length := List.length_append
      obtain ⟨ih1, ih2⟩ := spanLoop_spec hM (tm := tm) f (pre ++ (v ++ w)) l2 r (p + v.length + w.length) _ hs2 (by rw [List.append_assoc, ← hsplit]; exact hd)
        (by rw [List.length_append]; omega) hbig (by omega)
      rw [List.length_append (as := pre), show p + v.length + w.length + l2.length = p + (c :: l).length by omega] at ih1 ih2
      refine ⟨fun h => ?_, fun h => ?_⟩
      · obtain ⟨big', q1, q2⟩ := ih1 (by omega)
        refine ⟨big', ?_, by rw [hsplit, ← List.append_assoc]; exact q2⟩
        rw [q1, Nat.add_assoc, ← hlen]
      · obtain ⟨u, l', big', x, y, q1, q2, q3, q4⟩ := ih2 (by omega)
        refine ⟨(v ++ w) ++ u, l', big', x, y, by rw [hsplit, q1]; simp, by rw [List.length_append]; omega, ?_, ?_⟩
        · intro ht
          rw [← List.append_assoc]; exact q3 ht
        · intro ht
          rw [← List.append_assoc]; exact q4 ht

/-! ### All digits -/

omit [Limb] in
theorem dropWhile_nil_iff (l : List Byte) : l.dropWhile (fun c => c == 48) = [] ↔ ∀ c ∈ l, c = 48 := by
  induction l with
  | nil => simp
  | cons c l ih =>
    rw [List.dropWhile_cons, List.forall_mem_cons]
    by_cases h : c = 48
    · rw [if_pos (by simpa using h), ih]; simp [h]
    · rw [if_neg (by simpa using h)]; simp [h]

omit [Limb] in
theorem digits_ne {l : List Byte} (hl : ∀ c ∈ l, IsDigit c) : (∃ c ∈ l, c ≠ 48) ↔ digitsValue l ≠ 0 := by
  rw [Ne, ← sigLen_zero_iff hl]
  unfold sigLen
  rw [List.length_eq_zero_iff, dropWhile_nil_iff]
  push Not
  rfl

omit [Limb] in
theorem sigLen_zeros {z d : List Byte} (hz : ∀ c ∈ z, c = 48) (hd : ∀ c ∈ d.head?, c ≠ 48) : sigLen (z ++ d) = d.length := by
  unfold sigLen
  rw [List.dropWhile_append, if_pos]
  · cases d with
    | nil => rfl
    | cons c d => rw [List.dropWhile_cons, if_neg (by simpa using hd c rfl)]
  · rw [List.isEmpty_iff, dropWhile_nil_iff]; exact hz

omit [Limb] in
theorem value_zeros {z : List Byte} (hz : ∀ c ∈ z, c = 48) (d : List Byte) : digitsValue (z ++ d) = digitsValue d := by
  have h : ∀ c ∈ z, IsDigit c := fun c hc => by rw [hz c hc]; decide
  have : digitsValue z = 0 := by
    by_contra hc
    obtain ⟨c, h1, h2⟩ := (digits_ne h).2 hc
    exact h2 (hz c h1)
  rw [digitsValue_append, this]; simp

/-- The result of `parse_mantissa`: all digits, or the first ones and whether there is more. -/
def MantissaOf (ds : List Byte) (maxD Y cnt : Nat) : Prop :=
  (sigLen ds ≤ maxD ∧ Y = digitsValue ds ∧ cnt = sigLen ds) ∨
  ∃ d1 d2, ds = d1 ++ d2 ∧ sigLen d1 = maxD ∧ ((digitsValue d2 = 0 ∧ Y = digitsValue d1 ∧ cnt = maxD) ∨ (digitsValue d2 ≠ 0 ∧ Y = 10 * digitsValue d1 + 1 ∧ cnt = maxD + 1))

/-- `parse_mantissa`. -/
theorem parseMantissa_spec {s a b : List Byte} {pns : PNS} {k : Int} (R : Reads s pns a b k) {maxD : Nat} (h0 : 0 < maxD) (hM : maxD ≤ 769) :
    ∃ big cnt Y, parseMantissa s pns maxD = some (big, cnt) ∧ Big big Y ∧ MantissaOf (a ++ b) maxD Y cnt := by
  obtain ⟨ra, hsa⟩ := R.int
  have hlen := congrArg List.length hsa
  rw [List.length_drop, List.length_append] at hlen
  have hda : ∀ c ∈ a, IsDigit c := fun c hc => R.digits c (List.mem_append_left _ hc)
  have hdb : ∀ c ∈ b, IsDigit c := fun c hc => R.digits c (List.mem_append_right _ hc)
  obtain ⟨za, da, ea, hza, -, hhd⟩ := zeros_cases a
  have hdda : ∀ c ∈ da, IsDigit c := fun c hc => hda c (by rw [ea]; exact List.mem_append_right _ hc)
  have sk := skipZeros_spec (s := s) (r := ra) (p := pns.integer.1) (by rw [hsa, ea]) hza hhd
  rw [← ea] at sk
  have hsd : s.drop (pns.integer.1 + za.length) = da ++ ra := by rw [← List.drop_drop, hsa, ea, List.append_assoc, List.drop_left]
  have hla : a.length = za.length + da.length := by rw [ea, List.length_append]
  -- whether there is something after the integer part
  obtain ⟨tm, htm, htm'⟩ : ∃ tm, fractionTruncated s pns = some tm ∧ (tm = true ↔ ∃ c ∈ b, c ≠ 48) := by
    unfold fractionTruncated
    rcases R.frac with ⟨h1, h2⟩ | ⟨q, r, h1, h2, -⟩
    · rw [h1, h2]; exact ⟨false, rfl, by simp⟩
    · rw [h1]; exact isTruncated_spec h2
  obtain ⟨sp1, sp2⟩ := spanLoop_spec hM (tm := tm) (s.length + 1) [] da ra (pns.integer.1 + za.length) [] hsd (by simpa using hdda) (by simpa using h0)
    (by simpa [digitsValue] using big_nil) (by omega)
  rw [show pns.integer.1 + za.length + da.length = pns.integer.1 + a.length by omega] at sp1 sp2
  simp only [List.length_nil, Nat.zero_add, List.nil_append] at sp1 sp2
  unfold parseMantissa
  dsimp only
  rw [R.intLen, sk, some_bind]
  rw [htm]
  by_cases hc : da.length < maxD
  · obtain ⟨big, q1, q2⟩ := sp1 hc
    rw [q1, some_bind]
    dsimp only
    rw [if_neg (by decide)]
    rcases R.frac with ⟨h1, h2⟩ | ⟨q, r, h1, h2, h3⟩
    · rw [h1, h2]
      refine ⟨big, da.length, digitsValue da, rfl, q2, Or.inl ?_⟩
      rw [List.append_nil, ea, sigLen_zeros hza hhd, value_zeros hza]
      exact ⟨hc.le, rfl, rfl⟩
    · rw [h1]
      dsimp only
      have hlb := congrArg List.length h2
      rw [List.length_drop, List.length_append] at hlb
      by_cases hz : da.length = 0
      · have hdn : da = [] := List.length_eq_zero_iff.1 hz
        obtain ⟨zb, db, eb, hzb, -, hhb⟩ := zeros_cases b
        have hddb : ∀ c ∈ db, IsDigit c := fun c hc => hdb c (by rw [eb]; exact List.mem_append_right _ hc)
        have sk' := skipZeros_spec (s := s) (r := r) (p := q) (by rw [h2, eb]) hzb hhb
        rw [← eb] at sk'
        have hsb : s.drop (q + zb.length) = db ++ r := by rw [← List.drop_drop, h2, eb, List.append_assoc, List.drop_left]
        have hlb' : b.length = zb.length + db.length := by rw [eb, List.length_append]
        obtain ⟨tp1, tp2⟩ := spanLoop_spec hM (tm := false) (s.length + 1) [] db r (q + zb.length) big hsb (by simpa using hddb) (by simpa using h0)
          (by rw [hdn] at q2; exact q2) (by omega)
        rw [show q + zb.length + db.length = q + b.length by omega] at tp1 tp2
        simp only [List.length_nil, Nat.zero_add, List.nil_append] at tp1 tp2
        rw [if_pos hz, sk', some_bind, hz]
        have hzab : ∀ c ∈ za ++ zb, c = 48 := by
          intro c hc
          rcases List.mem_append.1 hc with hc | hc
          · exact hza c hc
          · exact hzb c hc
        have eab : a ++ b = (za ++ zb) ++ db := by rw [ea, eb, hdn]; simp
        by_cases hcb : db.length < maxD
        · obtain ⟨big', u1, u2⟩ := tp1 hcb
          rw [show (pure false : Option Bool) = some false from rfl, u1, some_bind]
          refine ⟨big', db.length, digitsValue db, rfl, u2, Or.inl ?_⟩
          rw [eab, sigLen_zeros hzab hhb, value_zeros hzab]
          exact ⟨hcb.le, rfl, rfl⟩
        · obtain ⟨u, l', big', x, y, v1, v2, v3, v4⟩ := tp2 (by omega)
          have hhu : ∀ c ∈ u.head?, c ≠ 48 := by
            intro c hcu
            refine hhb c ?_
            cases u with
            | nil => simp at hcu
            | cons d u => rw [v1]; exact hcu
          have hdl' : ∀ c ∈ l', IsDigit c := fun c hc => hddb c (by rw [v1]; exact List.mem_append_right _ hc)
          have esp : a ++ b = ((za ++ zb) ++ u) ++ l' := by rw [eab, v1, ← List.append_assoc]
          rw [show (pure false : Option Bool) = some false from rfl]
          by_cases ht : (∃ c ∈ l', c ≠ 48) ∨ false = true
          · obtain ⟨w1, w2⟩ := v3 ht
            rw [w1, some_bind]
            refine ⟨big', maxD + 1, _, rfl, w2, Or.inr ⟨_, l', esp, ?_, Or.inr ⟨?_, ?_, rfl⟩⟩⟩
            · rw [sigLen_zeros hzab hhu]; exact v2
            · rw [← digits_ne hdl']; simpa using ht
            · rw [value_zeros hzab]
          · obtain ⟨w1, w2⟩ := v4 ht
            rw [w1, some_bind]
            refine ⟨big', maxD, _, rfl, w2, Or.inr ⟨_, l', esp, ?_, Or.inl ⟨?_, ?_, rfl⟩⟩⟩
            · rw [sigLen_zeros hzab hhu]; exact v2
            · by_contra hne; exact ht (Or.inl ((digits_ne hdl').2 hne))
            · rw [value_zeros hzab]
      · rw [if_neg hz]
        obtain ⟨tp1, tp2⟩ := spanLoop_spec hM (tm := false) (s.length + 1) da b r q big h2 (by
          intro c hc
          rcases List.mem_append.1 hc with hc | hc
          · exact hdda c hc
          · exact hdb c hc) hc q2 (by omega)
        have hdne : da ≠ [] := fun h => hz (by rw [h]; rfl)
        have hhab : ∀ u : List Byte, ∀ c ∈ (da ++ u).head?, c ≠ 48 := by
          intro u c hcu
          obtain ⟨d, da', rfl⟩ := List.exists_cons_of_ne_nil hdne
          exact hhd c hcu
        have eab : a ++ b = za ++ (da ++ b) := by rw [ea, List.append_assoc]
        rw [show (pure q : Option Nat) = some q from rfl, some_bind]
        by_cases hcb : da.length + b.length < maxD
        · obtain ⟨big', u1, u2⟩ := tp1 hcb
          rw [show (pure false : Option Bool) = some false from rfl, u1, some_bind]
          refine ⟨big', da.length + b.length, digitsValue (da ++ b), rfl, u2, Or.inl ?_⟩
          rw [eab, sigLen_zeros hza (hhab b), value_zeros hza, List.length_append]
          exact ⟨hcb.le, rfl, rfl⟩
        · obtain ⟨u, l', big', x, y, v1, v2, v3, v4⟩ := tp2 (by omega)
          have hdl' : ∀ c ∈ l', IsDigit c := fun c hc => hdb c (by rw [v1]; exact List.mem_append_right _ hc)
          have esp : a ++ b = (za ++ (da ++ u)) ++ l' := by rw [eab, v1]; simp
          rw [show (pure false : Option Bool) = some false from rfl]
          by_cases ht : (∃ c ∈ l', c ≠ 48) ∨ false = true
          · obtain ⟨w1, w2⟩ := v3 ht
            rw [w1, some_bind]
            refine ⟨big', maxD + 1, _, rfl, w2, Or.inr ⟨_, l', esp, ?_, Or.inr ⟨?_, ?_, rfl⟩⟩⟩
            · rw [sigLen_zeros hza (hhab u), List.length_append]; exact v2
            · rw [← digits_ne hdl']; simpa using ht
            · rw [value_zeros hza]
          · obtain ⟨w1, w2⟩ := v4 ht
            rw [w1, some_bind]
            refine ⟨big', maxD, _, rfl, w2, Or.inr ⟨_, l', esp, ?_, Or.inl ⟨?_, ?_, rfl⟩⟩⟩
            · rw [sigLen_zeros hza (hhab u), List.length_append]; exact v2
            · by_contra hne; exact ht (Or.inl ((digits_ne hdl').2 hne))
            · rw [value_zeros hza]
  · obtain ⟨u, l', big, x, y, v1, v2, v3, v4⟩ := sp2 (by omega)
    have hhu : ∀ c ∈ u.head?, c ≠ 48 := by
      intro c hcu
      refine hhd c ?_
      cases u with
      | nil => simp at hcu
      | cons d u => rw [v1]; exact hcu
    have hdl' : ∀ c ∈ l' ++ b, IsDigit c := by
      intro c hc
      rcases List.mem_append.1 hc with hc | hc
      · exact hdda c (by rw [v1]; exact List.mem_append_right _ hc)
      · exact hdb c hc
    have esp : a ++ b = (za ++ u) ++ (l' ++ b) := by rw [ea, v1]; simp
    have hiff : ((∃ c ∈ l', c ≠ 48) ∨ tm = true) ↔ digitsValue (l' ++ b) ≠ 0 := by
      rw [htm', ← digits_ne hdl']
      constructor
      · rintro (⟨c, hc, h⟩ | ⟨c, hc, h⟩)
        · exact ⟨c, List.mem_append_left _ hc, h⟩
        · exact ⟨c, List.mem_append_right _ hc, h⟩
      · rintro ⟨c, hc, h⟩
        rcases List.mem_append.1 hc with hc | hc
        · exact Or.inl ⟨c, hc, h⟩
        · exact Or.inr ⟨c, hc, h⟩
    by_cases ht : (∃ c ∈ l', c ≠ 48) ∨ tm = true
    · obtain ⟨w1, w2⟩ := v3 ht
      rw [w1, some_bind]
      refine ⟨big, maxD + 1, _, rfl, w2, Or.inr ⟨_, l' ++ b, esp, ?_, Or.inr ⟨hiff.1 ht, ?_, rfl⟩⟩⟩
      · rw [sigLen_zeros hza hhu]; exact v2
      · rw [value_zeros hza]
    · obtain ⟨w1, w2⟩ := v4 ht
      rw [w1, some_bind]
      refine ⟨big, maxD, _, rfl, w2, Or.inr ⟨_, l' ++ b, esp, ?_, Or.inl ⟨?_, ?_, rfl⟩⟩⟩
      · rw [sigLen_zeros hza hhu]; exact v2
      · by_contra hne; exact ht (hiff.2 hne)
      · rw [value_zeros hza]

end Nanostl.FastFloat
