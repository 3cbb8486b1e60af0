import Verif.Rw.Props
import Verif.Pipe.Model
import Verif.Pipe.Spec
namespace Pipe
open Io Rw Spec

theorem le_bound (x : Bytes) : le x < 256 ^ x.length := by
  induction x with
  | nil => simp [le]
  | cons b x ih =>
    simp only [le, List.length_cons, Nat.pow_succ]
    have := b.toNat_lt
    omega

theorem packLoop_length (n x : Nat) : (packLoop n x).length = n := by
  induction n generalizing x with
  | zero => rfl
  | succ n ih => simp [packLoop, ih]

theorem le_packLoop (n x : Nat) : le (packLoop n x) = x % 256 ^ n := by
  induction n generalizing x with
  | zero => simp [packLoop, le, Nat.mod_one]
  | succ n ih =>
    simp only [packLoop, le, ih]
    have e : 256 ^ (n + 1) = 256 * 256 ^ n := by rw [Nat.pow_succ, Nat.mul_comm]
    rw [UInt8.toNat_ofNat', Nat.shiftRight_eq_div_pow, e, Nat.mod_mul]

theorem unpackLoop_le (x : Bytes) (h : x.length ≤ 8) : unpackLoop x = le x := by
  induction x with
  | nil => rfl
  | cons b x ih =>
    simp only [List.length_cons] at h
    have hb := le_bound x
    have hp : 256 ^ x.length ≤ 256 ^ 7 := Nat.pow_le_pow_right (by omega) (by omega)
    have hs : le x <<< 8 < 2 ^ 64 := by
      rw [Nat.shiftLeft_eq]
      have : le x < 256 ^ 7 := by omega
      have e : (256 : Nat) ^ 7 = 2 ^ 56 := by decide
      rw [e] at this
      have : le x * 2 ^ 8 < 2 ^ 56 * 2 ^ 8 := by omega
      simpa using this
    simp only [unpackLoop, ih (by omega), le, Nat.mod_eq_of_lt hs]
    rw [Nat.shiftLeft_add_eq_or_of_lt (i := 8) (by exact b.toNat_lt) (le x) |>.symm, Nat.shiftLeft_eq]
    omega

theorem le_inj (x y : Bytes) (h : x.length = y.length) (he : le x = le y) : x = y := by
  induction x generalizing y with
  | nil => cases y with
    | nil => rfl
    | cons b y => simp at h
  | cons a x ih => cases y with
    | nil => simp at h
    | cons b y =>
      simp only [le] at he
      have h1 := a.toNat_lt
      have h2 := b.toNat_lt
      have hab : a.toNat = b.toNat := by omega
      have hxy : le x = le y := by omega
      rw [UInt8.toNat_inj.mp hab, ih y (by simpa using h) hxy]

theorem header_pack (n : Nat) (h : n < 2 ^ 64) : Header (uint64_pack n) n := by
  refine ⟨packLoop_length 8 _, ?_⟩
  unfold uint64_pack
  rw [le_packLoop]
  have : toU64 (n : Int) = n := by
    unfold toU64
    rw [Int.emod_eq_of_lt (by omega) (by exact_mod_cast h)]; simp
  rw [this]
  exact Nat.mod_eq_of_lt (by simpa using h)

theorem unpackU_header {h : Bytes} {n : Nat} (hh : Header h n) : uint64_unpackU h = n := by
  unfold uint64_unpackU
  rw [unpackLoop_le _ (by rw [hh.1]; exact Nat.le_refl _), hh.2]

theorem header_lt {h : Bytes} {n : Nat} (hh : Header h n) : n < 2 ^ 64 := by
  have := le_bound h
  rw [hh.1, hh.2] at this
  simpa using this

theorem unpackU_le (x : Bytes) (h : x.length = 8) : uint64_unpackU x = le x :=
  unpackU_header ⟨h, rfl⟩

/-- Reading `n` bytes from a stream that starts with `x` of length `n`, when the
schedule has no hard error: either blocked or exactly `x`. -/
theorem readall_exact (fd : RFd) (x tl : Bytes) (hsrc : fd.src = x ++ tl)
    (he : ∀ e, .err e ∉ fd.evs) :
    readall fd x.length = none ∨
      ∃ evs', readall fd x.length = some (0, x, ⟨tl, evs'⟩) ∧ (∀ e, .err e ∉ evs') := by
  cases h : readall fd x.length with
  | none => exact .inl rfl
  | some v =>
    obtain ⟨r, y, fd'⟩ := v
    obtain ⟨h1, used, h2, h3⟩ := c13_readall fd x.length r y fd' h
    right
    have hlen : x.length + tl.length = y.length + fd'.src.length := by
      have := congrArg List.length (hsrc.symm.trans h1)
      simpa using this
    have he' : ∀ e, RdEv.err e ∉ fd'.evs := fun e hm => he e (by rw [h2]; simp [hm])
    rcases h3 with ⟨rfl, hy⟩ | ⟨rfl, hy, h4⟩
    · have := List.append_inj (hsrc.symm.trans h1) hy.symm
      refine ⟨fd'.evs, ?_, he'⟩
      rw [this.1, this.2]
    · rcases h4 with ⟨h4, -⟩ | ⟨u, e, rfl⟩
      · rw [h4] at hlen; simp at hlen; omega
      · exact absurd (by rw [h2]; simp) (he e)

end Pipe
