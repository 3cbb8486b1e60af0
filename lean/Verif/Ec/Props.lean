import Verif.Ec.Model
import Verif.Ec.Spec
/-
C64: scalars and points of the key exchange.
-/
namespace Ec

/-! ### Numbers -/

theorem num_acc (s : Bytes) (a : Nat) : s.foldl (fun a b => 256 * a + b.toNat) a = a * 256 ^ s.length + Spec.num s := by
  induction s generalizing a with
  | nil => simp [Spec.num]
  | cons b s ih =>
    unfold Spec.num
    simp only [List.foldl_cons, List.length_cons, ih]
    rw [Nat.pow_succ, Nat.add_mul, Nat.add_mul, Nat.mul_zero, Nat.zero_mul, Nat.zero_add,
      Nat.mul_comm 256 a, Nat.mul_assoc, Nat.mul_comm 256, Nat.add_assoc]

theorem num_cons (b : Byte) (s : Bytes) : Spec.num (b :: s) = b.toNat * 256 ^ s.length + Spec.num s := by
  show (b :: s).foldl _ 0 = _
  rw [List.foldl_cons, num_acc]; simp

theorem num_lt (s : Bytes) : Spec.num s < 256 ^ s.length := by
  induction s with
  | nil => simp [Spec.num]
  | cons b s ih =>
    rw [num_cons, List.length_cons, Nat.pow_succ]
    have hb := b.toNat_lt
    have : b.toNat * 256 ^ s.length ≤ 255 * 256 ^ s.length := Nat.mul_le_mul_right _ (by omega)
    omega

/-! ### The scalars -/

attribute [local instance] decForallByte in
theorem clamped (b : Byte) : 64 ≤ ((b &&& 127) ||| 64).toNat ∧ ((b &&& 127) ||| 64).toNat < 128 := by
  revert b; decide +kernel

attribute [local instance] decForallByte in
theorem clamped_twice (b : Byte) : (((b &&& 127) ||| 64) &&& 127) ||| 64 = (b &&& 127) ||| 64 := by
  revert b; decide +kernel

attribute [local instance] decForallByte in
theorem high (b : Byte) : 128 ≤ (b ||| 128).toNat := by
  revert b; decide +kernel

attribute [local instance] decForallByte in
theorem high_twice (b : Byte) : (b ||| 128) ||| 128 = b ||| 128 := by
  revert b; decide +kernel

theorem clamp_cons (b : Byte) (t : Bytes) : clamp (b :: t) = .ok (((b &&& 127) ||| 64) :: t) := by
  simp [clamp, wr]

theorem clamp521_cons (a b : Byte) (t : Bytes) : clamp521 (a :: b :: t) = .ok (0 :: (b ||| 128) :: t) := by
  simp [clamp521, wr, rd]

theorem take_scalar (b : Byte) (t : Bytes) (n : Nat) (hn : n + 1 ≤ (b :: t).length) (hb : 64 ≤ b.toNat) (hb2 : b.toNat < 128) :
    ((b :: t).take (n + 1)).length = n + 1 ∧ 64 * 256 ^ n ≤ Spec.num ((b :: t).take (n + 1)) ∧
      Spec.num ((b :: t).take (n + 1)) < 128 * 256 ^ n := by
  have hl : (t.take n).length = n := by simp at hn ⊢; omega
  refine ⟨by simp at hn ⊢; omega, ?_, ?_⟩
  · rw [List.take_succ_cons, num_cons, hl]
    have : 64 * 256 ^ n ≤ b.toNat * 256 ^ n := Nat.mul_le_mul_right _ hb
    omega
  · rw [List.take_succ_cons, num_cons, hl]
    have := num_lt (t.take n)
    rw [hl] at this
    have h2 : b.toNat * 256 ^ n ≤ 127 * 256 ^ n := Nat.mul_le_mul_right _ (by omega)
    omega

theorem copyN_over (p r : Bytes) (h : r.length ≤ p.length) : copyN p 0 r r.length = .ok (r ++ p.drop r.length) := by
  have := copyN_ok [] (p.take r.length) (p.drop r.length) r [] (by simp; omega)
  simpa using this

theorem readN_ok (m : Bytes) (n : Nat) (h : n ≤ m.length) : readN m n = .ok (m.take n) := if_pos h

theorem shift_spec (n : Nat) : ∀ (i : Nat) (p : Bytes), i + n < p.length →
    shift n i p = .ok (p.take i ++ (p.drop (i + 1)).take n ++ p.drop (i + n)) := by
  induction n with
  | zero => intro i p h; simp [shift]
  | succ n ih =>
    intro i p h
    rw [shift, rd_lt p (i + 1) (by omega), Out.ok_bind, wr_lt _ _ _ (by omega), Out.ok_bind, ih _ _ (by simp; omega)]
    congr 1
    apply List.ext_getElem?
    intro k
    simp only [List.getElem?_append, List.length_append, List.length_take, List.length_drop, List.length_set,
      List.getElem?_take, List.getElem?_drop, List.getElem?_set]
    grind

/-- What the secret buffer holds after the clamping for a curve, and that clamping
again changes nothing. -/
theorem clamp_ok (sk : Bytes) (n : Nat) (h : sk.length = 66) (hn : n + 1 ≤ 66) :
    ∃ sk', clamp sk = .ok sk' ∧ sk'.length = 66 ∧ clamp sk' = .ok sk' ∧
      (sk'.take (n + 1)).length = n + 1 ∧ 64 * 256 ^ n ≤ Spec.num (sk'.take (n + 1)) ∧
      Spec.num (sk'.take (n + 1)) < 128 * 256 ^ n := by
  cases sk with
  | nil => simp at h
  | cons b t =>
    refine ⟨_, clamp_cons b t, by simpa using h, by rw [clamp_cons, clamped_twice], ?_⟩
    exact take_scalar _ t n (by simp at h ⊢; omega) (clamped b).1 (clamped b).2

theorem clamp521_ok (sk : Bytes) (h : sk.length = 66) :
    ∃ sk', clamp521 sk = .ok sk' ∧ sk'.length = 66 ∧ clamp521 sk' = .ok sk' ∧
      (sk'.take 66).length = 66 ∧ 128 * 256 ^ 64 ≤ Spec.num (sk'.take 66) ∧
      Spec.num (sk'.take 66) < 256 * 256 ^ 64 := by
  rcases sk with _ | ⟨a, _ | ⟨b, t⟩⟩
  · simp at h
  · simp at h
  · have ht : t.length = 64 := by simp at h; omega
    refine ⟨_, clamp521_cons a b t, by simpa using h, by rw [clamp521_cons, high_twice], by simp [ht], ?_⟩
    rw [List.take_of_length_le (by simp [ht]), num_cons, num_cons, ht]
    have h1 : 128 * 256 ^ 64 ≤ (b ||| 128).toNat * 256 ^ 64 := Nat.mul_le_mul_right _ (high b)
    have h2 := num_lt t
    rw [ht] at h2
    have h3 : (b ||| 128).toNat * 256 ^ 64 ≤ 255 * 256 ^ 64 := Nat.mul_le_mul_right _ (by have := (b ||| 128).toNat_lt; omega)
    have h0 : (0 : UInt8).toNat = 0 := rfl
    rw [h0, Nat.zero_mul, Nat.zero_add]
    omega

/-! ### C64 -/

/-- Where the shared secret is found in what the implementation computes: the
x coordinate, behind the format byte, for the curves with uncompressed points. -/
def Spec.secret (c : Spec.Curve) (r : Bytes) : Bytes := if c.order.isSome then (r.drop 1).take c.secret else r

/-- What the implementation computes for a scalar. -/
def Spec.gen (I : Impl) (c : Spec.Curve) (s : Bytes) : Bytes × Bool :=
  if c = Spec.x448 then match I.x448 with
    | some (g, _) => g s
    | none => ([], false)
  else if c = Spec.x25519 ∧ I.lib25519.isSome then match I.lib25519 with
    | some (g, _) => (g s, true)
    | none => ([], false)
  else (I.mulgen c.id s, (I.mulgen c.id s).length = c.point)

/-- What the implementation computes for a point and a scalar. -/
def Spec.mul (I : Impl) (c : Spec.Curve) (q s : Bytes) : Bytes × Bool :=
  if c = Spec.x448 then match I.x448 with
    | some (_, m) => m s q
    | none => ([], false)
  else if c = Spec.x25519 ∧ I.lib25519.isSome then match I.lib25519 with
    | some (_, m) => (m s q, true)
    | none => ([], false)
  else I.mul c.id q s

theorem genCase_ok (I : Impl) (hI : I.Lawful) (curve n m : Nat) (p sk : Bytes) (hp : p.length = 133) (hs : n ≤ sk.length) :
    genCase I curve n m p sk = .ok ⟨if (I.mulgen curve (sk.take n)).length = m then 0 else -1,
      I.mulgen curve (sk.take n) ++ p.drop (I.mulgen curve (sk.take n)).length,
      (I.mulgen curve (sk.take n)).length, sk, [.gen curve (sk.take n)]⟩ := by
  unfold genCase
  rw [readN_ok _ _ hs, Out.ok_bind]
  simp only []
  rw [copyN_over _ _ (by have := hI.mulgen curve (sk.take n); omega)]
  rfl

theorem mulCase_ok (I : Impl) (hI : I.Lawful) (curve n m : Nat) (p sk : Bytes) (hp : p.length = 133) (hs : n ≤ sk.length)
    (hn : n < m) (hm : m ≤ 133) :
    ∃ p', p'.length = 133 ∧ p'.take n = ((I.mul curve (p.take m) (sk.take n)).1.drop 1).take n ∧
      mulCase I curve n m p sk = .ok ⟨if (I.mul curve (p.take m) (sk.take n)).2 then 0 else -1, p', n, sk,
        [.mul curve (p.take m) (sk.take n)]⟩ := by
  unfold mulCase
  rw [readN_ok _ _ hs, Out.ok_bind, readN_ok _ _ (by omega), Out.ok_bind]
  have hl := hI.mul curve (p.take m) (sk.take n)
  generalize I.mul curve (p.take m) (sk.take n) = x at hl
  obtain ⟨r, ok⟩ := x
  simp only [] at hl ⊢
  have hr : r.length = m := by rw [hl]; simp; omega
  rw [copyN_over _ _ (by omega), Out.ok_bind, shift_spec _ _ _ (by simp; omega), Out.ok_bind]
  refine ⟨_, ?_, ?_, rfl⟩
  · simp; omega
  · simp only [List.take_zero, List.nil_append, Nat.zero_add]
    rw [List.take_append_of_le_length (by simp; omega), List.take_take, Nat.min_self,
      List.drop_append_of_le_length (by omega), List.take_append_of_le_length (by simp; omega)]

/-- C64: for every supported curve and whatever random bytes were drawn, the public
point is computed from a valid scalar of the curve; success means that the
implementation computed a point of the curve's length, which is what is stored. -/
theorem c64_base (I : Impl) (hI : I.Lawful) (c : Spec.Curve) (hc : c ∈ Spec.curves I.x448.isSome) (p sk : Bytes)
    (hp : p.length = 133) (hsk : sk.length = 66) :
    ∃ r s, base I c.id p sk = .ok r ∧ Spec.Scalar c s ∧ r.calls = [.gen c.id s] ∧ r.p.length = 133 ∧ r.sk.length = 66 ∧
      (r.ret = 0 ↔ (Spec.gen I c s).2 = true) ∧ (r.ret = 0 ∨ r.ret = -1) ∧
      (r.ret = 0 → r.plen = c.point ∧ r.p.take c.point = (Spec.gen I c s).1) := by
  have fin : ∀ (c : Spec.Curve) (sk : Bytes), sk.length = 66 → c.scalar ≤ 66 → c ≠ Spec.x448 →
      ¬ (c = Spec.x25519 ∧ I.lib25519.isSome) → Spec.Scalar c (sk.take c.scalar) →
      ∃ r s, genCase I c.id c.scalar c.point p sk = .ok r ∧ Spec.Scalar c s ∧ r.calls = [.gen c.id s] ∧ r.p.length = 133 ∧ r.sk.length = 66 ∧
      (r.ret = 0 ↔ (Spec.gen I c s).2 = true) ∧ (r.ret = 0 ∨ r.ret = -1) ∧
      (r.ret = 0 → r.plen = c.point ∧ r.p.take c.point = (Spec.gen I c s).1) := by
    intro c sk hsk hs h1 h2 h3
    refine ⟨_, _, genCase_ok I hI _ _ _ p sk hp (by omega), h3, rfl, ?_, hsk, ?_, ?_, ?_⟩
    · have := hI.mulgen c.id (sk.take c.scalar); simp; omega
    · unfold Spec.gen; rw [if_neg h1, if_neg h2]; simp only [decide_eq_true_eq]; split <;> simp_all
    · simp only []; split <;> simp
    · unfold Spec.gen; rw [if_neg h1, if_neg h2]
      intro h
      have : (I.mulgen c.id (sk.take c.scalar)).length = c.point := by simp only [] at h; split at h <;> simp_all
      simp only []
      refine ⟨this, ?_⟩
      rw [← this, List.take_left]
  rcases List.mem_append.mp hc with hc | hc
  · simp only [List.mem_cons, List.not_mem_nil, or_false] at hc
    rcases hc with rfl | rfl | rfl | rfl
    · obtain ⟨sk', e, hl, _, h1, h2, h3⟩ := clamp_ok sk 31 hsk (by omega)
      simp only [Nat.reduceAdd] at h1 h2 h3
      have := fin Spec.p256 sk' hl (by decide) (by decide) (by simp [Spec.p256, Spec.x25519]) ⟨h1, by
        intro n hn; simp only [Spec.p256, Option.some.injEq] at hn ⊢; omega⟩
      simpa [base, Spec.p256, x448, x25519, secp256r1, e] using this
    · obtain ⟨sk', e, hl, _, h1, h2, h3⟩ := clamp_ok sk 47 hsk (by omega)
      simp only [Nat.reduceAdd] at h1 h2 h3
      have := fin Spec.p384 sk' hl (by decide) (by decide) (by simp [Spec.p384, Spec.x25519]) ⟨h1, by
        intro n hn; simp only [Spec.p384, Option.some.injEq] at hn ⊢; omega⟩
      simpa [base, Spec.p384, x448, x25519, secp256r1, secp384r1, e] using this
    · obtain ⟨sk', e, hl, _, h1, h2, h3⟩ := clamp521_ok sk hsk
      have := fin Spec.p521 sk' hl (by decide) (by decide) (by simp [Spec.p521, Spec.x25519]) ⟨h1, by
        intro n hn; simp only [Spec.p521, Option.some.injEq] at hn ⊢; omega⟩
      simpa [base, Spec.p521, x448, x25519, secp256r1, secp384r1, secp521r1, e] using this
    · have hs : Spec.Scalar Spec.x25519 (sk.take 32) := ⟨by simp [Spec.x25519]; omega, by simp [Spec.x25519]⟩
      cases hL : I.lib25519 with
      | none =>
        have := fin Spec.x25519 sk hsk (by decide) (by decide) (by simp [hL]) hs
        simpa [base, Spec.x25519, x448, x25519, hL] using this
      | some gm =>
        obtain ⟨g, m⟩ := gm
        have hg := (hI.lib25519 g m hL).1 (sk.take 32)
        refine ⟨⟨0, g (sk.take 32) ++ p.drop 32, 32, sk, [.gen 29 (sk.take 32)]⟩, sk.take 32, ?_, hs, rfl, ?_, hsk, ?_, ?_, ?_⟩
        · have hcp := copyN_over p (g (sk.take 32)) (by omega)
          rw [hg] at hcp
          simp [base, Spec.x25519, x448, x25519, hL, readN_ok sk 32 (by omega), hg, hcp]
        · simp [hg]; omega
        · simp [Spec.gen, Spec.x25519, Spec.x448, hL]
        · exact .inl rfl
        · intro _
          simp only [Spec.gen, Spec.x25519, Spec.x448, hL]
          refine ⟨trivial, ?_⟩
          have : (g (sk.take 32) ++ p.drop 32).take 32 = g (sk.take 32) := by
            rw [List.take_append_of_le_length (by omega), List.take_of_length_le (by omega)]
          simpa using this
  · cases hX : I.x448 with
    | none => simp [hX] at hc
    | some gm =>
      obtain ⟨g, m⟩ := gm
      simp only [hX, Option.isSome_some, if_true, List.mem_singleton] at hc
      subst hc
      have hs : Spec.Scalar Spec.x448 (sk.take 56) := ⟨by simp [Spec.x448]; omega, by simp [Spec.x448]⟩
      have hg := (hI.x448 g m hX).1 (sk.take 56)
      refine ⟨⟨if (g (sk.take 56)).2 then 0 else -1, (g (sk.take 56)).1 ++ p.drop 56, 56, sk, [.gen 30 (sk.take 56)]⟩, sk.take 56, ?_, hs, rfl, ?_, hsk, ?_, ?_, ?_⟩
      · have hcp := copyN_over p (g (sk.take 56)).1 (by omega)
        rw [hg] at hcp
        simp [base, Spec.x448, x448, hX, readN_ok sk 56 (by omega), hg, hcp]
      · simp [hg]; omega
      · simp only [Spec.gen, Spec.x448, hX]; cases h : (g (sk.take 56)).2 <;> simp [h]
      · cases (g (sk.take 56)).2 <;> simp
      · intro _
        simp only [Spec.gen, Spec.x448, hX]
        refine ⟨trivial, ?_⟩
        have : ((g (sk.take 56)).1 ++ p.drop 56).take 56 = (g (sk.take 56)).1 := by
          rw [List.take_append_of_le_length (by omega), List.take_of_length_le (by omega)]
        simpa using this

/-- C64: the shared secret is computed from the peer's point of the curve's length
and a valid scalar; it has the curve's length and is what the implementation
computed (the x coordinate where it computes a point). -/
theorem c64_mul (I : Impl) (hI : I.Lawful) (c : Spec.Curve) (hc : c ∈ Spec.curves I.x448.isSome) (p sk : Bytes)
    (hp : p.length = 133) (hsk : sk.length = 66) :
    ∃ r s, mul I c.id p sk = .ok r ∧ Spec.Scalar c s ∧ r.calls = [.mul c.id (p.take c.point) s] ∧ r.p.length = 133 ∧
      (r.ret = 0 ↔ (Spec.mul I c (p.take c.point) s).2 = true) ∧ (r.ret = 0 ∨ r.ret = -1) ∧ r.plen = c.secret ∧
      r.p.take c.secret = Spec.secret c (Spec.mul I c (p.take c.point) s).1 := by
  have fin : ∀ (c : Spec.Curve) (sk : Bytes), sk.length = 66 → c.scalar = c.secret → c.secret < c.point → c.point ≤ 133 →
      c.secret ≤ 66 → c ≠ Spec.x448 → c ≠ Spec.x25519 → c.order.isSome → Spec.Scalar c (sk.take c.scalar) →
      ∃ r s, mulCase I c.id c.secret c.point p sk = .ok r ∧ Spec.Scalar c s ∧ r.calls = [.mul c.id (p.take c.point) s] ∧
        r.p.length = 133 ∧
      (r.ret = 0 ↔ (Spec.mul I c (p.take c.point) s).2 = true) ∧ (r.ret = 0 ∨ r.ret = -1) ∧ r.plen = c.secret ∧
      r.p.take c.secret = Spec.secret c (Spec.mul I c (p.take c.point) s).1 := by
    intro c sk hsk h0 h1 h2 h3 h4 h5 h6 h7
    obtain ⟨p', e1, e2, e3⟩ := mulCase_ok I hI c.id c.secret c.point p sk hp (by omega) h1 h2
    rw [h0] at h7
    have h5' : ¬ (c = Spec.x25519 ∧ I.lib25519.isSome = true) := fun h => h5 h.1
    refine ⟨_, _, e3, h7, rfl, e1, ?_, ?_, rfl, ?_⟩
    · unfold Spec.mul; rw [if_neg h4, if_neg h5']; simp only []; split <;> simp_all
    · simp only []; split <;> simp
    · unfold Spec.mul Spec.secret; rw [if_neg h4, if_neg h5', if_pos h6]; exact e2
  have flat : ∀ (r : Bytes) (n : Nat), r.length = n → n ≤ 133 →
      copyN p 0 r n = .ok (r ++ p.drop n) ∧ (r ++ p.drop n).length = 133 ∧ (r ++ p.drop n).take n = r := by
    intro r n hr hn
    have := copyN_over p r (by omega)
    rw [hr] at this
    exact ⟨this, by simp; omega, by rw [List.take_append_of_le_length (by omega), List.take_of_length_le (by omega)]⟩
  rcases List.mem_append.mp hc with hc | hc
  · simp only [List.mem_cons, List.not_mem_nil, or_false] at hc
    rcases hc with rfl | rfl | rfl | rfl
    · obtain ⟨sk', e, hl, _, h1, h2, h3⟩ := clamp_ok sk 31 hsk (by omega)
      simp only [Nat.reduceAdd] at h1 h2 h3
      have := fin Spec.p256 sk' hl rfl (by decide) (by decide) (by decide) (by decide) (by decide) rfl ⟨h1, by
        intro n hn; simp only [Spec.p256, Option.some.injEq] at hn ⊢; omega⟩
      simpa [mul, Spec.p256, x448, x25519, secp256r1, e] using this
    · obtain ⟨sk', e, hl, _, h1, h2, h3⟩ := clamp_ok sk 47 hsk (by omega)
      simp only [Nat.reduceAdd] at h1 h2 h3
      have := fin Spec.p384 sk' hl rfl (by decide) (by decide) (by decide) (by decide) (by decide) rfl ⟨h1, by
        intro n hn; simp only [Spec.p384, Option.some.injEq] at hn ⊢; omega⟩
      simpa [mul, Spec.p384, x448, x25519, secp256r1, secp384r1, e] using this
    · obtain ⟨sk', e, hl, _, h1, h2, h3⟩ := clamp521_ok sk hsk
      have := fin Spec.p521 sk' hl rfl (by decide) (by decide) (by decide) (by decide) (by decide) rfl ⟨h1, by
        intro n hn; simp only [Spec.p521, Option.some.injEq] at hn ⊢; omega⟩
      simpa [mul, Spec.p521, x448, x25519, secp256r1, secp384r1, secp521r1, e] using this
    · have hs : Spec.Scalar Spec.x25519 (sk.take 32) := ⟨by simp [Spec.x25519]; omega, by simp [Spec.x25519]⟩
      have r1 := readN_ok sk 32 (by omega)
      have r2 := readN_ok p 32 (by omega)
      cases hL : I.lib25519 with
      | none =>
        have hl := hI.mul 29 (p.take 32) (sk.take 32)
        obtain ⟨k1, k2, k3⟩ := flat (I.mul 29 (p.take 32) (sk.take 32)).1 32 (by rw [hl]; simp; omega) (by omega)
        refine ⟨⟨if (I.mul 29 (p.take 32) (sk.take 32)).2 then 0 else -1, (I.mul 29 (p.take 32) (sk.take 32)).1 ++ p.drop 32, 32, sk,
          [.mul 29 (p.take 32) (sk.take 32)]⟩, sk.take 32, ?_, hs, rfl, k2, ?_, ?_, rfl, ?_⟩
        · simp only [mul, Spec.x25519, x448, x25519, hL, r1, r2, Out.ok_bind]
          rw [show (I.mul 29 (p.take 32) (sk.take 32)).1.length = 32 by rw [hl]; simp; omega, k1]
          rfl
        · simp only [Spec.mul, Spec.x25519, Spec.x448, hL]
          cases h : (I.mul 29 (p.take 32) (sk.take 32)).2 <;> simp [h]
        · cases (I.mul 29 (p.take 32) (sk.take 32)).2 <;> simp
        · simpa [Spec.mul, Spec.secret, Spec.x25519, Spec.x448, hL] using k3
      | some gm =>
        obtain ⟨g, m⟩ := gm
        have hl := (hI.lib25519 g m hL).2 (sk.take 32) (p.take 32)
        obtain ⟨k1, k2, k3⟩ := flat (m (sk.take 32) (p.take 32)) 32 hl (by omega)
        refine ⟨⟨0, m (sk.take 32) (p.take 32) ++ p.drop 32, 32, sk, [.mul 29 (p.take 32) (sk.take 32)]⟩, sk.take 32, ?_, hs, rfl, k2, ?_, .inl rfl, rfl, ?_⟩
        · simp only [mul, Spec.x25519, x448, x25519, hL, r1, r2, Out.ok_bind, hl]
          rw [k1]
          rfl
        · simp [Spec.mul, Spec.x25519, Spec.x448, hL]
        · simpa [Spec.mul, Spec.secret, Spec.x25519, Spec.x448, hL] using k3
  · cases hX : I.x448 with
    | none => simp [hX] at hc
    | some gm =>
      obtain ⟨g, m⟩ := gm
      simp only [hX, Option.isSome_some, if_true, List.mem_singleton] at hc
      subst hc
      have hs : Spec.Scalar Spec.x448 (sk.take 56) := ⟨by simp [Spec.x448]; omega, by simp [Spec.x448]⟩
      have hl := (hI.x448 g m hX).2 (sk.take 56) (p.take 56)
      obtain ⟨k1, k2, k3⟩ := flat (m (sk.take 56) (p.take 56)).1 56 hl (by omega)
      refine ⟨⟨if (m (sk.take 56) (p.take 56)).2 then 0 else -1, (m (sk.take 56) (p.take 56)).1 ++ p.drop 56, 56, sk, [.mul 30 (p.take 56) (sk.take 56)]⟩, sk.take 56, ?_, hs, rfl, k2, ?_, ?_, rfl, ?_⟩
      · simp only [mul, Spec.x448, x448, hX, readN_ok sk 56 (by omega), readN_ok p 56 (by omega), Out.ok_bind, hl,
          Option.isSome_some, and_self, if_true]
        rw [k1]
        rfl
      · simp only [Spec.mul, Spec.x448, hX]; cases h : (m (sk.take 56) (p.take 56)).2 <;> simp [h]
      · cases (m (sk.take 56) (p.take 56)).2 <;> simp
      · simpa [Spec.mul, Spec.secret, Spec.x448, hX] using k3

theorem readN_inv {m x : Bytes} {n : Nat} (h : readN m n = .ok x) : x = m.take n := by
  unfold readN at h; split at h <;> cases h; rfl

theorem genCase_inv {I : Impl} {curve n m : Nat} {p sk : Bytes} {r : Res} (h : genCase I curve n m p sk = .ok r) :
    r.sk = sk ∧ r.calls = [.gen curve (sk.take n)] := by
  unfold genCase at h
  cases h1 : readN sk n with
  | ub => rw [h1] at h; cases h
  | ok s =>
    rw [h1, Out.ok_bind] at h
    simp only [] at h
    cases h2 : copyN p 0 (I.mulgen curve s) (I.mulgen curve s).length with
    | ub => rw [h2] at h; cases h
    | ok p' => rw [h2] at h; cases h; rw [readN_inv h1]; exact ⟨rfl, rfl⟩

theorem mulCase_inv {I : Impl} {curve n m : Nat} {p sk : Bytes} {r : Res} (h : mulCase I curve n m p sk = .ok r) :
    ∃ q, r.calls = [.mul curve q (sk.take n)] := by
  unfold mulCase at h
  cases h1 : readN sk n with
  | ub => rw [h1] at h; cases h
  | ok s =>
    rw [h1, Out.ok_bind] at h
    cases h2 : readN p m with
    | ub => rw [h2] at h; cases h
    | ok q =>
      rw [h2, Out.ok_bind] at h
      simp only [] at h
      cases h3 : copyN p 0 (I.mul curve q s).1 (I.mul curve q s).1.length with
      | ub => rw [h3] at h; cases h
      | ok p' =>
        rw [h3, Out.ok_bind] at h
        cases h4 : shift n 0 p' with
        | ub => rw [h4] at h; cases h
        | ok p'' => rw [h4] at h; cases h; rw [readN_inv h1]; exact ⟨_, rfl⟩

/-- C64: the scalar of the shared secret is the scalar of the public point, when
the buffer is kept as `base` left it. -/
theorem c64_same_scalar (I : Impl) (hI : I.Lawful) (c : Spec.Curve) (hc : c ∈ Spec.curves I.x448.isSome) (p p' sk : Bytes)
    (hp : p.length = 133) (hp' : p'.length = 133) (hsk : sk.length = 66) :
    ∃ r r' s, base I c.id p sk = .ok r ∧ mul I c.id p' r.sk = .ok r' ∧ Spec.Scalar c s ∧
      r.calls = [.gen c.id s] ∧ r'.calls = [.mul c.id (p'.take c.point) s] := by
  obtain ⟨r, s, h1, h2, h3, _, h4, _⟩ := c64_base I hI c hc p sk hp hsk
  obtain ⟨r', s', g1, g2, g3, _⟩ := c64_mul I hI c hc p' r.sk hp' h4
  refine ⟨r, r', s, h1, g1, h2, h3, ?_⟩
  rw [g3]
  suffices s' = s by rw [this]
  have gen : ∀ (n m : Nat) (k : Bytes), genCase I c.id n m p k = .ok r → r.sk = k ∧ s = k.take n := by
    intro n m k h
    obtain ⟨e1, e2⟩ := genCase_inv h
    rw [h3] at e2
    injection e2 with e2; injection e2 with _ e2
    exact ⟨e1, e2⟩
  have mulc : ∀ (n m : Nat) (k : Bytes), mulCase I c.id n m p' k = .ok r' → s' = k.take n := by
    intro n m k h
    obtain ⟨q, e2⟩ := mulCase_inv h
    rw [g3] at e2
    injection e2 with e2; injection e2
  rcases List.mem_append.mp hc with hc | hc
  · simp only [List.mem_cons, List.not_mem_nil, or_false] at hc
    rcases hc with rfl | rfl | rfl | rfl
    · obtain ⟨sk', e, hl, e', _⟩ := clamp_ok sk 31 hsk (by omega)
      simp only [base, Spec.p256, x448, x25519, secp256r1, e, Out.ok_bind] at h1
      obtain ⟨a1, a2⟩ := gen 32 65 sk' (by simpa [Spec.p256] using h1)
      simp only [mul, Spec.p256, x448, x25519, secp256r1, a1, e', Out.ok_bind] at g1
      rw [a2, mulc 32 65 sk' (by simpa [Spec.p256] using g1)]
    · obtain ⟨sk', e, hl, e', _⟩ := clamp_ok sk 47 hsk (by omega)
      simp only [base, Spec.p384, x448, x25519, secp256r1, secp384r1, e, Out.ok_bind] at h1
      obtain ⟨a1, a2⟩ := gen 48 97 sk' (by simpa [Spec.p384] using h1)
      simp only [mul, Spec.p384, x448, x25519, secp256r1, secp384r1, a1, e', Out.ok_bind] at g1
      rw [a2, mulc 48 97 sk' (by simpa [Spec.p384] using g1)]
    · obtain ⟨sk', e, hl, e', _⟩ := clamp521_ok sk hsk
      simp only [base, Spec.p521, x448, x25519, secp256r1, secp384r1, secp521r1, e, Out.ok_bind] at h1
      obtain ⟨a1, a2⟩ := gen 66 133 sk' (by simpa [Spec.p521] using h1)
      simp only [mul, Spec.p521, x448, x25519, secp256r1, secp384r1, secp521r1, a1, e', Out.ok_bind] at g1
      rw [a2, mulc 66 133 sk' (by simpa [Spec.p521] using g1)]
    · have k : r.sk = sk ∧ s = sk.take 32 := by
        cases hL : I.lib25519 with
        | none =>
          simp only [base, Spec.x25519, x448, x25519, hL] at h1
          exact gen 32 32 sk (by simpa [Spec.x25519] using h1)
        | some gm =>
          obtain ⟨g, m⟩ := gm
          simp only [base, Spec.x25519, x448, x25519, hL, readN_ok sk 32 (by omega), Out.ok_bind,
            copyN_over p (g (sk.take 32)) (by rw [(hI.lib25519 g m hL).1]; omega)] at h1
          simp at h1
          subst h1
          simp at h3
          exact ⟨rfl, h3.2.symm⟩
      have k' : s' = r.sk.take 32 := by
        have hl := hI.mul 29 (p'.take 32) (r.sk.take 32)
        cases hL : I.lib25519 with
        | none =>
          simp only [mul, Spec.x25519, x448, x25519, hL, readN_ok r.sk 32 (by omega), readN_ok p' 32 (by omega), Out.ok_bind,
            copyN_over p' (I.mul 29 (p'.take 32) (r.sk.take 32)).1 (by rw [hl]; simp; omega)] at g1
          simp at g1
          subst g1
          simp at g3
          exact g3.2.2.symm
        | some gm =>
          obtain ⟨g, m⟩ := gm
          simp only [mul, Spec.x25519, x448, x25519, hL, readN_ok r.sk 32 (by omega), readN_ok p' 32 (by omega), Out.ok_bind,
            copyN_over p' (m (r.sk.take 32) (p'.take 32)) (by rw [(hI.lib25519 g m hL).2]; omega)] at g1
          simp at g1
          subst g1
          simp at g3
          exact g3.2.2.symm
      rw [k', k.1, k.2]
  · cases hX : I.x448 with
    | none => simp [hX] at hc
    | some gm =>
      obtain ⟨g, m⟩ := gm
      simp only [hX, Option.isSome_some, if_true, List.mem_singleton] at hc
      subst hc
      have k : r.sk = sk ∧ s = sk.take 56 := by
        simp only [base, Spec.x448, x448, hX, readN_ok sk 56 (by omega), Out.ok_bind,
            copyN_over p (g (sk.take 56)).1 (by rw [(hI.x448 g m hX).1]; omega)] at h1
        simp at h1
        subst h1
        simp at h3
        exact ⟨rfl, h3.2.symm⟩
      have k' : s' = r.sk.take 56 := by
        simp only [mul, Spec.x448, x448, hX, readN_ok r.sk 56 (by omega), readN_ok p' 56 (by omega), Out.ok_bind,
            copyN_over p' (m (r.sk.take 56) (p'.take 56)).1 (by rw [(hI.x448 g m hX).2]; omega)] at g1
        simp at g1
        subst g1
        simp at g3
        exact g3.2.2.symm
      rw [k', k.1, k.2]

/-- C64: for any other curve nothing is computed: no scalar is used, the buffers
are left alone and the failure is reported. -/
theorem c64_unknown (I : Impl) (curve : Nat) (hc : ∀ c ∈ Spec.curves I.x448.isSome, c.id ≠ curve) (p sk : Bytes) :
    base I curve p sk = .ok ⟨-1, p, 0, sk, []⟩ ∧ mul I curve p sk = .ok ⟨-1, p, 0, sk, []⟩ := by
  have h1 : ¬ curve = secp256r1 := fun h => hc Spec.p256 (by simp [Spec.curves]) h.symm
  have h2 : ¬ curve = secp384r1 := fun h => hc Spec.p384 (by simp [Spec.curves]) h.symm
  have h3 : ¬ curve = secp521r1 := fun h => hc Spec.p521 (by simp [Spec.curves]) h.symm
  have h4 : ¬ curve = x25519 := fun h => hc Spec.x25519 (by simp [Spec.curves]) h.symm
  have h5 : ¬ (curve = x448 ∧ I.x448.isSome) := by
    rintro ⟨rfl, h⟩
    exact hc Spec.x448 (by simp [Spec.curves, h]) rfl
  unfold base mul
  simp only [h1, h2, h3, h4, h5, if_false, and_self]

/-- An implementation for the examples. -/
def toy : Impl where
  mulgen c s := if c = 23 ∧ s.length = 32 then 4 :: s ++ s else []
  mul _ p _ := (p, true)
  x448 := none
  lib25519 := none

theorem toy_lawful : toy.Lawful where
  mulgen c s := by
    show (if c = 23 ∧ s.length = 32 then 4 :: s ++ s else []).length ≤ 133
    split
    · rename_i h; simp; omega
    · simp
  mul c p s := rfl
  x448 g m h := by cases h
  lib25519 g m h := by cases h

/-- P-256 with all-ones random bytes: the scalar starts with 0x7f. -/
example : (match base toy 23 (List.replicate 133 0) (List.replicate 66 255) with
    | .ok r => (r.ret, r.plen, r.p.take 2, r.sk.take 2)
    | .ub => (-1, 0, [], [])) = (0, 65, [4, 127], [127, 255]) := by decide +kernel
example : ∃ c ∈ Spec.curves toy.x448.isSome, c.id = 23 := ⟨Spec.p256, by simp [Spec.curves], rfl⟩
/-- Curve 26 is unknown. -/
example : ∀ c ∈ Spec.curves toy.x448.isSome, c.id ≠ 26 := by decide

end Ec
