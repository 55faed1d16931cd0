import Verif.Hash.Model
import Mathlib.Data.Nat.Bitwise
import Mathlib.Tactic.Ring
import Mathlib.Tactic.NormNum

/-! Property theorems C34, C35. -/

namespace Nanostl.Hash

/-! ### C34: specification of SipHash-2-4 after Aumasson and Bernstein, "SipHash: a fast short-input PRF" -/

namespace Spec

/-- Little-endian number of a byte sequence. -/
def le : List Byte → Nat
  | [] => 0
  | b :: bs => b.toNat + 256 * le bs

/-- Initialisation constants: the text "somepseudorandomlygeneratedbytes", eight characters big-endian each. -/
def ascii (s : String) : Word := BitVec.ofNat 64 (s.toList.foldl (fun a c => 256 * a + c.toNat) 0)

/-- The message words: zero-padded to a whole number of words, the last byte being the length modulo 256. -/
def pad (m : List Byte) : List Byte := m ++ List.replicate (7 - m.length % 8) 0#8 ++ [BitVec.ofNat 8 m.length]

def words : Nat → List Byte → List Word
  | 0, _ => []
  | n + 1, l => BitVec.ofNat 64 (le (l.take 8)) :: words n (l.drop 8)

def messageWords (m : List Byte) : List Word := words (m.length / 8 + 1) (pad m)

structure S where
  a : Word
  b : Word
  c : Word
  d : Word

/-- SipRound, as drawn in figure 2.1: two half rounds of additions, rotations and xors. -/
def half (r1 r2 : Nat) (s : S) : S :=
  let x := s.a + s.b
  let y := s.c + s.d
  ⟨x.rotateLeft 32, x ^^^ s.b.rotateLeft r1, y, y ^^^ s.d.rotateLeft r2⟩

def sipRound (s : S) : S :=
  let s := half 13 16 s
  -- the second half works on the pairs (v2, v1) and (v0, v3)
  let t := half 17 21 ⟨s.c, s.b, s.a, s.d⟩
  ⟨t.c, t.b, t.a, t.d⟩

def iter : Nat → S → S
  | 0, s => s
  | n + 1, s => iter n (sipRound s)

def compress (s : S) (m : Word) : S :=
  let s := iter 2 ⟨s.a, s.b, s.c, s.d ^^^ m⟩
  ⟨s.a ^^^ m, s.b, s.c, s.d⟩

def leBytes (v : Word) : List Byte := (List.range 8).map fun i => BitVec.ofNat 8 (v.toNat / 256 ^ i)

def start (k0 k1 : Word) : S :=
  ⟨k0 ^^^ ascii "somepseu", k1 ^^^ ascii "dorandom", k0 ^^^ ascii "lygenera", k1 ^^^ ascii "tedbytes"⟩

def out (s : S) : Word := s.a ^^^ s.b ^^^ s.c ^^^ s.d

/-- SipHash-2-4 with 64-bit result. -/
def sip64 (k m : List Byte) : List Byte :=
  let s := (messageWords m).foldl compress (start (BitVec.ofNat 64 (le (k.take 8))) (BitVec.ofNat 64 (le (k.drop 8))))
  leBytes (out (iter 4 ⟨s.a, s.b, s.c ^^^ 0xff#64, s.d⟩))

/-- SipHash-2-4-128. -/
def sip128 (k m : List Byte) : List Byte :=
  let i := start (BitVec.ofNat 64 (le (k.take 8))) (BitVec.ofNat 64 (le (k.drop 8)))
  let s := (messageWords m).foldl compress ⟨i.a, i.b ^^^ 0xee#64, i.c, i.d⟩
  let s := iter 4 ⟨s.a, s.b, s.c ^^^ 0xee#64, s.d⟩
  leBytes (out s) ++ leBytes (out (iter 4 ⟨s.a, s.b ^^^ 0xdd#64, s.c, s.d⟩))

end Spec

def toS (v : V) : Spec.S := ⟨v.v0, v.v1, v.v2, v.v3⟩

theorem rotl_eq (x : Word) {n : Nat} (h : n < 64) : rotl x n = x.rotateLeft n := by
  unfold rotl
  rw [BitVec.rotateLeft_def, Nat.mod_eq_of_lt h]

theorem sipround_eq (v : V) : toS (sipround v) = Spec.sipRound (toS v) := by
  obtain ⟨a, b, c, d⟩ := v
  simp only [sipround, toS, Spec.sipRound, Spec.half, rotl_eq _ (show 13 < 64 by decide), rotl_eq _ (show 16 < 64 by decide),
    rotl_eq _ (show 17 < 64 by decide), rotl_eq _ (show 21 < 64 by decide), rotl_eq _ (show 32 < 64 by decide)]
  simp only [Spec.S.mk.injEq]
  refine ⟨?_, ?_, ?_, ?_⟩ <;> simp only [BitVec.xor_comm]

theorem rounds_eq : ∀ (n : Nat) (v : V), toS (rounds n v) = Spec.iter n (toS v)
  | 0, _ => rfl
  | n + 1, v => by rw [rounds, Spec.iter, rounds_eq n, sipround_eq]

theorem absorb_eq (v : V) (m : Word) : toS (absorb v m) = Spec.compress (toS v) m := by
  have h := rounds_eq 2 { v with v3 := v.v3 ^^^ m }
  simp only [toS] at h
  simp only [absorb, Spec.compress, toS, ← h]

/-- Or-ing a byte above the bits in use adds it. -/
theorem or_above {x : Nat} {j : Nat} (c : Nat) (hx : x < 2 ^ (8 * j)) : x ||| c <<< (8 * j) = x + c * 2 ^ (8 * j) := by
  rw [Nat.or_comm, Nat.shiftLeft_eq, Nat.mul_comm c, ← Nat.two_pow_add_eq_or_of_lt hx, Nat.add_comm]

/-- Or-ing a byte below the bits in use adds it. -/
theorem or_below {x j c : Nat} (hc : c < 256) : (x * 2 ^ (8 * (j + 1))) ||| c <<< (8 * j) = x * 2 ^ (8 * (j + 1)) + c * 2 ^ (8 * j) := by
  have h : c <<< (8 * j) < 2 ^ (8 * (j + 1)) := by
    rw [Nat.shiftLeft_eq, show 8 * (j + 1) = 8 + 8 * j by omega, Nat.pow_add]
    exact Nat.mul_lt_mul_of_pos_right hc (Nat.two_pow_pos _)
  rw [Nat.mul_comm x, ← Nat.two_pow_add_eq_or_of_lt h, Nat.shiftLeft_eq]

theorem shifted (c : Byte) {j : Nat} (hj : j < 8) : (c.setWidth 64 <<< (8 * j) : Word).toNat = c.toNat <<< (8 * j) := by
  have hc := c.isLt
  rw [BitVec.toNat_shiftLeft, BitVec.toNat_setWidth, Nat.mod_eq_of_lt (Nat.lt_of_lt_of_le hc (by decide)), Nat.mod_eq_of_lt]
  rw [Nat.shiftLeft_eq]
  calc c.toNat * 2 ^ (8 * j) < 2 ^ 8 * 2 ^ (8 * j) := Nat.mul_lt_mul_of_pos_right hc (Nat.two_pow_pos _)
    _ = 2 ^ (8 + 8 * j) := (Nat.pow_add ..).symm
    _ ≤ 2 ^ 64 := Nat.pow_le_pow_right (by decide) (by omega)

theorem add_byte (x : Word) (c : Byte) {j : Nat} (hj : j < 8) (hx : x.toNat < 2 ^ (8 * j)) :
    (x ||| c.setWidth 64 <<< (8 * j)).toNat = x.toNat + c.toNat * 2 ^ (8 * j) ∧
      (x ||| c.setWidth 64 <<< (8 * j)).toNat < 2 ^ (8 * (j + 1)) := by
  have h1 : (x ||| c.setWidth 64 <<< (8 * j)).toNat = x.toNat + c.toNat * 2 ^ (8 * j) := by
    rw [BitVec.toNat_or, shifted c hj, or_above _ hx]
  refine ⟨h1, ?_⟩
  have hc := c.isLt
  rw [h1, show 8 * (j + 1) = 8 * j + 8 by omega, Nat.pow_add]
  have : c.toNat * 2 ^ (8 * j) ≤ 255 * 2 ^ (8 * j) := Nat.mul_le_mul_right _ (by omega)
  omega

/-- The value of `U8TO64_LE`. -/
theorem u8to64_eq {l : List Byte} {p : Nat} (h : p + 8 ≤ l.length) :
    u8to64 l p = some (BitVec.ofNat 64 (Spec.le ((l.drop p).take 8))) := by
  have hd : (l.drop p).take 8 = [l[p], l[p + 1], l[p + 2], l[p + 3], l[p + 4], l[p + 5], l[p + 6], l[p + 7]] := by
    apply List.ext_getElem
    · simp; omega
    · intro i h1 h2
      simp only [List.getElem_take, List.getElem_drop]
      have : i < 8 := by simpa using h2
      match i, this with
      | 0, _ => rfl
      | 1, _ => rfl
      | 2, _ => rfl
      | 3, _ => rfl
      | 4, _ => rfl
      | 5, _ => rfl
      | 6, _ => rfl
      | 7, _ => rfl
  rw [hd]
  unfold u8to64
  simp only [List.getElem?_eq_getElem (show p < l.length by omega), List.getElem?_eq_getElem (show p + 1 < l.length by omega),
    List.getElem?_eq_getElem (show p + 2 < l.length by omega), List.getElem?_eq_getElem (show p + 3 < l.length by omega),
    List.getElem?_eq_getElem (show p + 4 < l.length by omega), List.getElem?_eq_getElem (show p + 5 < l.length by omega),
    List.getElem?_eq_getElem (show p + 6 < l.length by omega), List.getElem?_eq_getElem (show p + 7 < l.length by omega),
    Option.bind_eq_bind, Option.bind_some, Option.pure_def, Option.some.injEq]
  generalize l[p] = b0
  generalize l[p + 1] = b1
  generalize l[p + 2] = b2
  generalize l[p + 3] = b3
  generalize l[p + 4] = b4
  generalize l[p + 5] = b5
  generalize l[p + 6] = b6
  generalize l[p + 7] = b7
  apply BitVec.eq_of_toNat_eq
  have h0 : (b0.setWidth 64 : Word).toNat = b0.toNat := by
    rw [BitVec.toNat_setWidth, Nat.mod_eq_of_lt (Nat.lt_of_lt_of_le b0.isLt (by decide))]
  have l0 : (b0.setWidth 64 : Word).toNat < 2 ^ (8 * 1) := by rw [h0]; exact b0.isLt
  have h1 := add_byte _ b1 (j := 1) (by decide) l0
  have h2 := add_byte _ b2 (j := 2) (by decide) h1.2
  have h3 := add_byte _ b3 (j := 3) (by decide) h2.2
  have h4 := add_byte _ b4 (j := 4) (by decide) h3.2
  have h5 := add_byte _ b5 (j := 5) (by decide) h4.2
  have h6 := add_byte _ b6 (j := 6) (by decide) h5.2
  have h7 := add_byte _ b7 (j := 7) (by decide) h6.2
  refine h7.1.trans ?_
  have e7 := h7.2
  rw [h7.1] at e7
  rw [h6.1, h5.1, h4.1, h3.1, h2.1, h1.1, h0] at e7 ⊢
  rw [BitVec.toNat_ofNat]
  simp only [Spec.le]
  norm_num only at e7 ⊢
  omega

theorem le_append (l m : List Byte) : Spec.le (l ++ m) = Spec.le l + 256 ^ l.length * Spec.le m := by
  induction l with
  | nil => simp [Spec.le]
  | cons b bs ih => simp only [List.cons_append, Spec.le, ih, List.length_cons, Nat.pow_succ]; ring

theorem le_lt (l : List Byte) : Spec.le l < 256 ^ l.length := by
  induction l with
  | nil => simp [Spec.le]
  | cons b bs ih =>
    have := b.isLt
    simp only [Spec.le, List.length_cons, Nat.pow_succ]
    omega

theorem le_zeros (n : Nat) : Spec.le (List.replicate n 0#8) = 0 := by
  induction n with
  | zero => rfl
  | succ n ih => simp [List.replicate_succ, Spec.le, ih]

/-- The tail word: the remaining bytes below what was in `b`. -/
theorem tail_eq {inp : List Byte} {p : Nat} : ∀ (j x : Nat) (b : Word), j < 8 → p + j ≤ inp.length → b.toNat = x * 2 ^ (8 * j) →
    ∃ b', tail inp p j b = some b' ∧ b'.toNat = x * 2 ^ (8 * j) + Spec.le ((inp.drop p).take j)
  | 0, x, b, _, _, h => ⟨b, rfl, by simp [h, Spec.le]⟩
  | j + 1, x, b, hj, hp, h => by
    have hget : inp[p + j]? = some inp[p + j] := List.getElem?_eq_getElem (by omega)
    have hb : (b ||| inp[p + j].setWidth 64 <<< (8 * j)).toNat = (x * 2 ^ 8 + inp[p + j].toNat) * 2 ^ (8 * j) := by
      rw [BitVec.toNat_or, shifted _ (by omega), h, or_below inp[p + j].isLt, show 8 * (j + 1) = 8 + 8 * j by omega, Nat.pow_add]
      ring
    obtain ⟨b', g1, g2⟩ := tail_eq (inp := inp) (p := p) j _ _ (by omega) (by omega) hb
    refine ⟨b', ?_, ?_⟩
    · unfold tail
      rw [hget]
      exact g1
    · rw [g2]
      have hdrop : (inp.drop p).take (j + 1) = (inp.drop p).take j ++ [inp[p + j]] := by
        rw [List.take_succ_eq_append_getElem (by simp; omega), List.getElem_drop]
      rw [hdrop, le_append]
      have hlen : ((inp.drop p).take j).length = j := by simp; omega
      rw [hlen]
      have e : (256 : Nat) ^ j = 2 ^ (8 * j) := by rw [Nat.pow_mul]
      simp only [Spec.le, Nat.mul_zero, Nat.add_zero]
      rw [e, show 8 * (j + 1) = 8 + 8 * j by omega, Nat.pow_add]
      ring

theorem blockLoop_eq {inp : List Byte} : ∀ (n f p : Nat) (v : V), p + 8 * n ≤ inp.length → n < f →
    ∃ v', blockLoop inp (p + 8 * n) f p v = some (v', p + 8 * n) ∧ ∀ rest : List Byte,
      toS v' = (Spec.words n ((inp ++ rest).drop p)).foldl Spec.compress (toS v)
  | 0, f, p, v, _, hf => by
    obtain ⟨f, rfl⟩ : ∃ g, f = g + 1 := ⟨f - 1, by omega⟩
    exact ⟨v, by simp [blockLoop], fun _ => rfl⟩
  | n + 1, f, p, v, h, hf => by
    obtain ⟨f, rfl⟩ : ∃ g, f = g + 1 := ⟨f - 1, by omega⟩
    obtain ⟨v', g1, g2⟩ := blockLoop_eq (inp := inp) n f (p + 8) (absorb v (BitVec.ofNat 64 (Spec.le ((inp.drop p).take 8)))) (by omega) (by omega)
    rw [show p + 8 + 8 * n = p + 8 * (n + 1) by omega] at g1
    refine ⟨v', ?_, fun rest => ?_⟩
    · unfold blockLoop
      rw [if_neg (by omega), u8to64_eq (by omega)]
      exact g1
    · rw [g2 rest, absorb_eq, Spec.words, List.foldl_cons, List.drop_drop]
      congr 3
      rw [List.drop_append_of_le_length (by omega), List.take_append_of_le_length (by simp; omega)]

theorem u64to8_eq (out : List Byte) (p : Nat) (v : Word) (h : p + 8 ≤ out.length) :
    u64to8 out p v = some (out.take p ++ Spec.leBytes v ++ out.drop (p + 8)) := by
  have hb : Spec.leBytes v = [(v.setWidth 32 : BitVec 32).setWidth 8, ((v.setWidth 32 : BitVec 32) >>> 8).setWidth 8,
      ((v.setWidth 32 : BitVec 32) >>> 16).setWidth 8, ((v.setWidth 32 : BitVec 32) >>> 24).setWidth 8,
      ((v >>> 32).setWidth 32 : BitVec 32).setWidth 8, (((v >>> 32).setWidth 32 : BitVec 32) >>> 8).setWidth 8,
      (((v >>> 32).setWidth 32 : BitVec 32) >>> 16).setWidth 8, (((v >>> 32).setWidth 32 : BitVec 32) >>> 24).setWidth 8] := by
    have hv := v.isLt
    simp only [Spec.leBytes, List.range_succ, List.range_zero, List.nil_append, List.map_cons, List.map_nil,
      List.cons_append, List.cons.injEq, and_true]
    refine ⟨?_, ?_, ?_, ?_, ?_, ?_, ?_, ?_⟩ <;> apply BitVec.eq_of_toNat_eq <;>
      simp only [BitVec.toNat_ofNat, BitVec.toNat_setWidth, BitVec.toNat_ushiftRight, Nat.shiftRight_eq_div_pow] <;>
      norm_num only <;> omega
  unfold u64to8
  rw [if_pos h, hb]
  congr 1
  apply List.ext_getElem
  · simp; omega
  · intro i h1 h2
    simp only [List.length_set] at h1
    by_cases hlt : i < p
    · rw [List.getElem_append_left (by simp; omega), List.getElem_append_left (by simp; omega), List.getElem_take]
      simp only [List.getElem_set]
      (repeat rw [if_neg (by omega)])
    · obtain ⟨j, rfl⟩ : ∃ j, i = p + j := ⟨i - p, by omega⟩
      by_cases hj : j < 8
      · rw [List.getElem_append_left (by simp; omega), List.getElem_append_right (by simp)]
        simp only [List.length_take, Nat.min_eq_left (show p ≤ out.length by omega), Nat.add_sub_cancel_left, List.getElem_set]
        match j, hj with
        | 0, _ => simp
        | 1, _ => simp
        | 2, _ => simp
        | 3, _ => simp
        | 4, _ => simp
        | 5, _ => simp
        | 6, _ => simp
        | 7, _ => simp
      · rw [List.getElem_append_right (by simp; omega)]
        simp only [List.getElem_set]
        (repeat rw [if_neg (by omega)])
        simp only [List.getElem_drop]
        congr 1
        simp; omega

theorem leBytes_length (v : Word) : (Spec.leBytes v).length = 8 := by simp [Spec.leBytes]

theorem last_word {l : List Byte} {r len : Nat} {b : Word} (hl : l.length = r) (hr : r < 8)
    (h : b.toNat = len % 256 * 2 ^ (8 * (7 - r)) * 2 ^ (8 * r) + Spec.le l) :
    b = BitVec.ofNat 64 (Spec.le (l ++ (List.replicate (7 - r) 0#8 ++ [BitVec.ofNat 8 len]))) := by
  have e1 : Spec.le (l ++ (List.replicate (7 - r) 0#8 ++ [BitVec.ofNat 8 len])) = b.toNat := by
    rw [le_append, le_append, le_zeros, hl, h, Nat.mul_assoc, ← Nat.pow_add, show 8 * (7 - r) + 8 * r = 56 by omega]
    simp only [Spec.le, List.length_replicate, BitVec.toNat_ofNat, Nat.mul_zero, Nat.add_zero, Nat.zero_add]
    rw [← Nat.mul_assoc, ← Nat.pow_add, show r + (7 - r) = 7 by omega]
    generalize Spec.le l = y
    norm_num only
    omega
  rw [e1, BitVec.ofNat_toNat, BitVec.setWidth_eq]

/-- All message words, in both halves of the code. -/
theorem message_eq (inp : List Byte) (hlen : inp.length < 2 ^ 64) (v : V) :
    ∃ v' b, blockLoop inp (inp.length - inp.length % 8) (inp.length + 1) 0 v = some (v', inp.length - inp.length % 8) ∧
      tail inp (inp.length - inp.length % 8) (inp.length % 8) (BitVec.ofNat 64 inp.length <<< 56) = some b ∧
      toS (absorb v' b) = (Spec.messageWords inp).foldl Spec.compress (toS v) := by
  obtain ⟨n, r, hr, hn⟩ : ∃ n r, r < 8 ∧ inp.length = 8 * n + r := ⟨inp.length / 8, inp.length % 8, Nat.mod_lt _ (by decide), by omega⟩
  have e1 : inp.length - inp.length % 8 = 0 + 8 * n := by omega
  have e2 : inp.length % 8 = r := by omega
  have e3 : inp.length / 8 = n := by omega
  obtain ⟨v', g1, g2⟩ := blockLoop_eq (inp := inp) n (inp.length + 1) 0 v (by omega) (by omega)
  have hb : (BitVec.ofNat 64 inp.length <<< 56 : Word).toNat = (inp.length % 256 * 2 ^ (8 * (7 - r))) * 2 ^ (8 * r) := by
    rw [BitVec.toNat_shiftLeft, BitVec.toNat_ofNat, Nat.mod_eq_of_lt hlen, Nat.shiftLeft_eq, Nat.mul_assoc, ← Nat.pow_add,
      show 8 * (7 - r) + 8 * r = 56 by omega, show (2 : Nat) ^ 64 = 256 * 2 ^ 56 from rfl, Nat.mul_mod_mul_right]
  obtain ⟨b, g3, g4⟩ := tail_eq (inp := inp) (p := 0 + 8 * n) r _ _ hr (by omega) hb
  refine ⟨v', b, by rw [e1]; exact g1, by rw [e1, e2]; exact g3, ?_⟩
  have hw : ∀ (n : Nat) (l : List Byte), Spec.words (n + 1) l = Spec.words n l ++ [BitVec.ofNat 64 (Spec.le ((l.drop (8 * n)).take 8))] := by
    intro n
    induction n with
    | zero => intro l; simp [Spec.words]
    | succ n ih =>
      intro l
      rw [Spec.words, ih, Spec.words, List.drop_drop, show 8 + 8 * n = 8 * (n + 1) by omega]; rfl
  rw [absorb_eq, g2 (List.replicate (7 - inp.length % 8) 0#8 ++ [BitVec.ofNat 8 inp.length]), Spec.messageWords, Spec.pad, e3, hw,
    List.foldl_append, List.append_assoc, List.drop_zero]
  simp only [List.foldl_cons, List.foldl_nil]
  have hl1 : (inp.drop (8 * n)).length = r := by simp; omega
  have hl2 : (inp.drop (0 + 8 * n)).take r = inp.drop (8 * n) := by
    rw [Nat.zero_add, List.take_of_length_le (by omega)]
  have ht : ((inp ++ (List.replicate (7 - inp.length % 8) 0#8 ++ [BitVec.ofNat 8 inp.length])).drop (8 * n)).take 8 =
      inp.drop (8 * n) ++ (List.replicate (7 - r) 0#8 ++ [BitVec.ofNat 8 inp.length]) := by
    rw [List.drop_append_of_le_length (by omega), List.take_of_length_le (by simp; omega), e2]
  rw [hl2] at g4
  rw [ht, ← last_word hl1 hr g4]

/-- C34. For every key of 16 bytes and every message, `siphash` reads only the message and the key, writes exactly the `outlen` bytes of
`out`, and these are SipHash-2-4 of the message under the key, with 64-bit or 128-bit result; other lengths fail the assertion. -/
theorem c34_siphash (inp k out : List Byte) (hin : inp.length < 2 ^ 64) (hk : k.length = 16) :
    (out.length = 8 → siphash inp k out 8 = some (Spec.sip64 k inp)) ∧
    (out.length = 16 → siphash inp k out 16 = some (Spec.sip128 k inp)) ∧
    (∀ outlen, outlen ≠ 8 → outlen ≠ 16 → siphash inp k out outlen = none) := by
  have k0 : u8to64 k 0 = some (BitVec.ofNat 64 (Spec.le (k.take 8))) := by rw [u8to64_eq (by omega)]; rfl
  have k1 : u8to64 k 8 = some (BitVec.ofNat 64 (Spec.le (k.drop 8))) := by
    rw [u8to64_eq (by omega), List.take_of_length_le (by simp; omega)]
  have c0 : Spec.ascii "somepseu" = 0x736f6d6570736575#64 := by decide
  have c1 : Spec.ascii "dorandom" = 0x646f72616e646f6d#64 := by decide
  have c2 : Spec.ascii "lygenera" = 0x6c7967656e657261#64 := by decide
  have c3 : Spec.ascii "tedbytes" = 0x7465646279746573#64 := by decide
  have fin : ∀ v : V, v.v0 ^^^ v.v1 ^^^ v.v2 ^^^ v.v3 = Spec.out (toS v) := fun _ => rfl
  refine ⟨?_, ?_, ?_⟩
  · intro ho
    obtain ⟨v', b, g1, g2, g3⟩ := message_eq inp hin ⟨0x736f6d6570736575#64 ^^^ BitVec.ofNat 64 (Spec.le (k.take 8)),
      0x646f72616e646f6d#64 ^^^ BitVec.ofNat 64 (Spec.le (k.drop 8)), 0x6c7967656e657261#64 ^^^ BitVec.ofNat 64 (Spec.le (k.take 8)),
      0x7465646279746573#64 ^^^ BitVec.ofNat 64 (Spec.le (k.drop 8))⟩
    simp only [siphash, k0, k1, g1, g2, Option.bind_eq_bind, Option.bind_some, true_or, if_true, Nat.reduceEqDiff, if_false, fin,
      rounds_eq, Option.pure_def]
    rw [u64to8_eq _ _ _ (by omega)]
    simp only [Option.bind_some, Option.some.injEq, List.take_zero, List.nil_append, Nat.zero_add]
    rw [List.drop_eq_nil_of_le (by omega), List.append_nil, Spec.sip64]
    have : toS ⟨0x736f6d6570736575#64 ^^^ BitVec.ofNat 64 (Spec.le (k.take 8)),
      0x646f72616e646f6d#64 ^^^ BitVec.ofNat 64 (Spec.le (k.drop 8)), 0x6c7967656e657261#64 ^^^ BitVec.ofNat 64 (Spec.le (k.take 8)),
      0x7465646279746573#64 ^^^ BitVec.ofNat 64 (Spec.le (k.drop 8))⟩ =
        Spec.start (BitVec.ofNat 64 (Spec.le (k.take 8))) (BitVec.ofNat 64 (Spec.le (k.drop 8))) := by
      simp only [toS, Spec.start, c0, c1, c2, c3, BitVec.xor_comm]
    rw [this] at g3
    rw [← g3]
    rfl
  · intro ho
    obtain ⟨v', b, g1, g2, g3⟩ := message_eq inp hin ⟨0x736f6d6570736575#64 ^^^ BitVec.ofNat 64 (Spec.le (k.take 8)),
      0x646f72616e646f6d#64 ^^^ BitVec.ofNat 64 (Spec.le (k.drop 8)) ^^^ 0xee#64, 0x6c7967656e657261#64 ^^^ BitVec.ofNat 64 (Spec.le (k.take 8)),
      0x7465646279746573#64 ^^^ BitVec.ofNat 64 (Spec.le (k.drop 8))⟩
    simp only [siphash, k0, k1, g1, g2, Option.bind_eq_bind, Option.bind_some, or_true, if_true, Nat.reduceEqDiff, if_false, fin,
      rounds_eq, Option.pure_def]
    rw [u64to8_eq _ _ _ (by omega)]
    simp only [Option.bind_some]
    rw [u64to8_eq _ _ _ (by simp [leBytes_length]; omega)]
    have this : toS ⟨0x736f6d6570736575#64 ^^^ BitVec.ofNat 64 (Spec.le (k.take 8)),
      0x646f72616e646f6d#64 ^^^ BitVec.ofNat 64 (Spec.le (k.drop 8)) ^^^ 0xee#64, 0x6c7967656e657261#64 ^^^ BitVec.ofNat 64 (Spec.le (k.take 8)),
      0x7465646279746573#64 ^^^ BitVec.ofNat 64 (Spec.le (k.drop 8))⟩ =
        ⟨(Spec.start (BitVec.ofNat 64 (Spec.le (k.take 8))) (BitVec.ofNat 64 (Spec.le (k.drop 8)))).a,
         (Spec.start (BitVec.ofNat 64 (Spec.le (k.take 8))) (BitVec.ofNat 64 (Spec.le (k.drop 8)))).b ^^^ 0xee#64,
         (Spec.start (BitVec.ofNat 64 (Spec.le (k.take 8))) (BitVec.ofNat 64 (Spec.le (k.drop 8)))).c,
         (Spec.start (BitVec.ofNat 64 (Spec.le (k.take 8))) (BitVec.ofNat 64 (Spec.le (k.drop 8)))).d⟩ := by
      simp only [toS, Spec.start, c0, c1, c2, c3]
      rw [BitVec.xor_comm (0x736f6d6570736575#64), BitVec.xor_comm (0x646f72616e646f6d#64), BitVec.xor_comm (0x6c7967656e657261#64),
        BitVec.xor_comm (0x7465646279746573#64)]
    rw [this] at g3
    have h4 := rounds_eq 4 { absorb v' b with v2 := (absorb v' b).v2 ^^^ 0xee#64 }
    have a1 : (out.take 0 ++ Spec.leBytes (Spec.out (Spec.iter 4 (toS { absorb v' b with v2 := (absorb v' b).v2 ^^^ 0xee#64 }))) ++
        out.drop (0 + 8)).take 8 = Spec.leBytes (Spec.out (Spec.iter 4 (toS { absorb v' b with v2 := (absorb v' b).v2 ^^^ 0xee#64 }))) := by
      rw [List.take_zero, List.nil_append, List.take_append_of_le_length (by simp [leBytes_length]),
        List.take_of_length_le (by simp [leBytes_length])]
    rw [a1, List.drop_eq_nil_of_le (by simp [leBytes_length]; omega), List.append_nil]
    generalize absorb v' b = w at g3 h4 ⊢
    obtain ⟨w0, w1, w2, w3⟩ := w
    unfold Spec.sip128
    simp only [← g3]
    generalize hq : rounds 4 _ = q at h4 ⊢
    simp only [toS] at h4 ⊢
    simp only [← h4]
  · intro n h1 h2
    simp [siphash, h1, h2]

/-- Test vectors of the authors, to tie the specification itself: key 00..0f, message 00..0e (paper, appendix A), and the 128-bit value
of the empty message. -/
example : siphash ((List.range 15).map (BitVec.ofNat 8)) ((List.range 16).map (BitVec.ofNat 8)) (List.replicate 8 0) 8 =
    some [0xe5, 0x45, 0xbe, 0x49, 0x61, 0xca, 0x29, 0xa1] := by decide +kernel
example : Spec.sip128 ((List.range 16).map (BitVec.ofNat 8)) [] =
    [0xa3, 0x81, 0x7f, 0x04, 0xba, 0x25, 0xa8, 0xe6, 0x6d, 0xf6, 0x72, 0x14, 0xc7, 0x55, 0x02, 0x93] := by decide +kernel

/-! ### C35 -/

/-- C35, integers: on the values of any one integral type of up to 64 bits, signed or not, the hash is injective (so equal hashes are
equal values, and equal values have equal hashes). -/
theorem c35_integers (v u : Int) (h : (-2 ^ 63 ≤ v ∧ v < 2 ^ 63 ∧ -2 ^ 63 ≤ u ∧ u < 2 ^ 63) ∨ (0 ≤ v ∧ v < 2 ^ 64 ∧ 0 ≤ u ∧ u < 2 ^ 64)) :
    hashInt v = hashInt u ↔ v = u := by
  constructor
  · intro e
    have e' := congrArg BitVec.toNat e
    simp only [hashInt, BitVec.toNat_ofInt] at e'
    omega
  · rintro rfl; rfl

open Nanostl.Float in
/-- C35, floating types: values that compare equal have equal hashes (so both zeros), and values that are not NaN and have equal hashes
compare equal. -/
theorem c35_floats {φ : Fmt} (g : φ.Good) (hsz : φ.size ≤ 2 ^ 64) (x y : Nat) (hx : x < φ.size) (hy : y < φ.size) :
    (φ.eq x y = true → hashFloat φ x = hashFloat φ y) ∧
    (φ.val x ≠ .nan → φ.val y ≠ .nan → hashFloat φ x = hashFloat φ y → φ.eq x y = true) := by
  have h0' : (0 : Nat) < φ.inf := by
    unfold Fmt.inf; rw [g.emax]; exact Nat.mul_pos (by omega) (Nat.two_pow_pos _)
  have hzv : φ.val 0 = .fin 0 := by
    have h : φ.withSign false 0 = 0 := rfl
    conv_lhs => rw [← h]
    rw [φ.val_withSign_fin h0', φ.mag_zero]; rfl
  have hz : ∀ x, φ.eq x 0 = true ↔ φ.val x = .fin 0 := by
    intro x
    unfold Fmt.eq
    rw [hzv]
    cases φ.val x <;> simp [Val.eq]
  have heq : ∀ x y, φ.eq x y = true ↔ φ.val x ≠ .nan ∧ φ.val x = φ.val y := by
    intro x y
    unfold Fmt.eq
    cases φ.val x <;> cases φ.val y <;> simp [Val.eq]
  -- equal values of different patterns are zeros
  have inj : ∀ x y, x < φ.size → y < φ.size → φ.val x ≠ .nan → φ.val x = φ.val y → x = y ∨ φ.val x = .fin 0 := by
    intro x y hx hy hn he
    by_cases hi : φ.low x < φ.inf
    · have e1 := φ.val_of_low_lt hi
      rw [e1] at he
      have hi' : φ.low y < φ.inf := (φ.val_eq_fin he.symm).1
      rw [φ.val_of_low_lt hi'] at he
      have := Fmt.signed_inj.1 (Val.fin.inj he)
      rcases this.2 with hs | hs
      · left
        exact φ.eq_of_sign_low hx hy hs (φ.mag_inj.1 this.1)
      · right
        rw [e1, hs]; unfold signed; split <;> simp
    · left
      have hfx : ¬∃ v, φ.val x = .fin v := by rw [φ.val_fin_iff]; exact hi
      have key : ∀ z, φ.val z ≠ .nan → (¬∃ v, φ.val z = .fin v) → φ.val z = .inf (φ.sign z) ∧ φ.low z = φ.emax * 2 ^ φ.mb := by
        intro z h1 h2
        have hl := φ.low_eq z
        unfold Fmt.val at *
        by_cases a : φ.expo z = φ.emax
        · by_cases b : φ.frac z = 0
          · rw [if_pos a, if_pos b]
            exact ⟨rfl, by rw [hl, a, b, Nat.add_zero]⟩
          · rw [if_pos a, if_neg b] at h1
            exact absurd rfl h1
        · rw [if_neg a] at h2
          exact absurd ⟨_, rfl⟩ h2
      obtain ⟨k1, k2⟩ := key x hn hfx
      obtain ⟨k3, k4⟩ := key y (by rw [← he]; exact hn) (by rw [← he]; exact hfx)
      rw [k1, k3] at he
      exact φ.eq_of_sign_low hx hy (Val.inf.inj he) (by rw [k2, k4])
  constructor
  · intro h
    obtain ⟨h1, h2⟩ := (heq x y).1 h
    rcases inj x y hx hy h1 h2 with rfl | h3
    · rfl
    · unfold hashFloat
      rw [if_pos ((hz x).2 h3), if_pos ((hz y).2 (by rw [← h2]; exact h3))]
  · intro h1 h2 h
    rw [heq]
    refine ⟨h1, ?_⟩
    have sc : ∀ z, z < φ.size → (scalarHash z).toNat = z := fun z hz => by
      unfold scalarHash
      rw [BitVec.toNat_ofNat, Nat.mod_eq_of_lt (by omega)]
    have nz : ∀ z, φ.val z ≠ .fin 0 → z ≠ 0 := fun z h e => h (by rw [e]; exact hzv)
    unfold hashFloat at h
    by_cases a : φ.val x = .fin 0 <;> by_cases b : φ.val y = .fin 0
    · rw [a, b]
    · rw [if_pos ((hz x).2 a), if_neg (fun c => b ((hz y).1 c))] at h
      have := congrArg BitVec.toNat h
      rw [sc y hy] at this
      exact absurd this.symm (nz y b)
    · rw [if_pos ((hz y).2 b), if_neg (fun c => a ((hz x).1 c))] at h
      have := congrArg BitVec.toNat h
      rw [sc x hx] at this
      exact absurd this (nz x a)
    · rw [if_neg (fun c => a ((hz x).1 c)), if_neg (fun c => b ((hz y).1 c))] at h
      have := congrArg BitVec.toNat h
      rw [sc x hx, sc y hy] at this
      rw [this]

/-- Both floating types are covered, and the zeros and a pair of different numbers are instances. -/
example : Float.f32.Good ∧ Float.f32.size ≤ 2 ^ 64 ∧ Float.f64.Good ∧ Float.f64.size ≤ 2 ^ 64 ∧
    Float.f32.eq 0 0x80000000 = true ∧ hashFloat Float.f32 0x80000000 = 0#64 ∧ hashFloat Float.f32 0x3f800000 = 0x3f800000#64 :=
  ⟨Float.Fmt.good32, by decide, Float.Fmt.good64, by decide, by decide +kernel, by decide +kernel, by decide +kernel⟩

end Nanostl.Hash
