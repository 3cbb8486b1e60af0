import Verif.Key.Net
import Verif.Key.Lemmas
import Verif.Pipe.Props
/-
C74: what the network process does with the answers of a key process that may send
anything at all.
-/
namespace Key.Net
open Io Pipe

/-- Whatever the other side sends and however the calls end: no undefined behaviour, and
if the operation succeeds its result satisfies `Q`. -/
def Any {α : Type} (m : M α) (Q : α → Prop) : Prop :=
  ∀ n, (∀ n', m n ≠ .ub n') ∧ ∀ a n', m n = .ok a n' → Q a

theorem Any.bind {α β : Type} {m : M α} {f : α → M β} {P : α → Prop} {Q : β → Prop} (h : Any m P) (hf : ∀ a, P a → Any (f a) Q) :
    Any (m >>= f) Q := by
  intro n
  show (∀ n', (match m n with | .ok a n => f a n | .fail n => .fail n | .blocked n => .blocked n | .ub n => .ub n) ≠ NR.ub n') ∧
    ∀ a n', (match m n with | .ok a n => f a n | .fail n => .fail n | .blocked n => .blocked n | .ub n => .ub n) = NR.ok a n' → Q a
  obtain ⟨h1, h2⟩ := h n
  cases hm : m n with
  | ok a n1 => exact hf a (h2 a n1 hm) n1
  | fail n1 => exact ⟨by nofun, by nofun⟩
  | blocked n1 => exact ⟨by nofun, by nofun⟩
  | ub n1 => exact absurd hm (h1 n1)

theorem Any.pure {α : Type} {a : α} {Q : α → Prop} (h : Q a) : Any (Pure.pure a : M α) Q :=
  fun _ => ⟨by nofun, fun _ _ e => by cases e; exact h⟩

theorem Any.fail {α : Type} {Q : α → Prop} : Any (Net.fail : M α) Q := fun _ => ⟨by nofun, by nofun⟩

theorem Any.lift {α : Type} {x : Out α} {Q : α → Prop} {a : α} (h : x = .ok a) (hq : Q a) : Any (Net.lift x) Q := by
  subst h
  exact fun _ => ⟨by nofun, fun _ _ e => by cases e; exact hq⟩

theorem Any.orFail {α : Type} {m : M α} {Q : Option α → Prop} (h : Any m fun a => Q (some a)) (h0 : Q none) : Any (orFail m) Q := by
  intro n
  obtain ⟨h1, h2⟩ := h n
  unfold Net.orFail
  cases hm : m n with
  | ok a n1 => exact ⟨by nofun, fun _ _ e => by cases e; exact h2 a n1 hm⟩
  | fail n1 => exact ⟨by nofun, fun _ _ e => by cases e; exact h0⟩
  | blocked n1 => exact ⟨by nofun, by nofun⟩
  | ub n1 => exact absurd hm (h1 n1)

theorem Any.mono {α : Type} {m : M α} {P Q : α → Prop} (h : Any m P) (hq : ∀ a, P a → Q a) : Any m Q :=
  fun n => ⟨(h n).1, fun a n' e => hq a ((h n).2 a n' e)⟩

theorem Any.write (x : Bytes) : Any (Net.write x) fun _ => True := by
  intro n
  unfold Net.write
  split
  · exact ⟨by nofun, by nofun⟩
  · split <;> exact ⟨by nofun, by simp⟩

theorem Any.readall (k : Nat) : Any (Net.readall k) fun x => x.length = k := by
  intro n
  unfold Net.readall
  cases h : pipe_readall n.fr k with
  | none => exact ⟨by nofun, by nofun⟩
  | some v =>
    obtain ⟨r, x, fd⟩ := v
    obtain ⟨-, h2, h3⟩ := c18_readall _ _ _ _ _ h
    by_cases hr : r = -1
    · simp only [if_pos hr]; exact ⟨by nofun, by nofun⟩
    · simp only [if_neg hr]
      refine ⟨by nofun, fun a n' e => ?_⟩
      cases e
      exact (h2 (by rcases h3 with h | h; exact h; exact absurd h hr)).2.1

theorem Any.readmax (k : Nat) : Any (Net.readmax k) fun x => x.length ≤ k := by
  intro n
  unfold Net.readmax
  cases h : pipe_readmax n.fr k with
  | none => exact ⟨by nofun, by nofun⟩
  | some v =>
    obtain ⟨r, x, m, fd⟩ := v
    obtain ⟨h1, -⟩ := c18_readmax _ _ _ _ _ _ h
    by_cases hr : r = -1
    · simp only [if_pos hr]; exact ⟨by nofun, by nofun⟩
    · simp only [if_neg hr]
      exact ⟨by nofun, fun a n' e => by cases e; exact h1⟩

theorem Any.readmaxTo (buf : Bytes) (pos : Int) (k : Nat) (h0 : 0 ≤ pos) (h1 : pos + k ≤ buf.length) :
    Any (Net.readmaxTo buf pos k) fun r => r.1.length ≤ k ∧ r.2 = over buf pos.toNat r.1 := by
  intro n
  unfold Net.readmaxTo
  cases h : pipe_readmax n.fr k with
  | none => exact ⟨by nofun, by nofun⟩
  | some v =>
    obtain ⟨r, x, m, fd⟩ := v
    obtain ⟨h2, -⟩ := c18_readmax _ _ _ _ _ _ h
    have hp : placeAt buf pos x = .ok (over buf pos.toNat x) := by
      unfold placeAt
      rw [if_neg (by omega), copyN_over _ _ _ (by omega)]
    simp only [hp]
    by_cases hr : r = -1
    · simp only [if_pos hr]; exact ⟨by nofun, by nofun⟩
    · simp only [if_neg hr]
      exact ⟨by nofun, fun a n' e => by cases e; exact ⟨h2, rfl⟩⟩

theorem Any.askRecord (op : Byte) (type version : Nat) (data : Bytes) :
    Any (Net.askRecord op type version data) fun o => -64 ≤ o ∧ o ≤ 64 := by
  refine .bind (.write _) fun _ _ => .bind (.write _) fun _ _ => .bind (.write _) fun _ _ => .bind (.write _) fun _ _ =>
    .bind (.readall _) fun o _ => ?_
  split
  · exact .fail
  · exact .pure (by omega)

theorem bind_ub {α β : Type} {m : M α} {f : α → M β} {n n' : N} (h : (m >>= f) n = .ub n') :
    m n = .ub n' ∨ ∃ a n1, m n = .ok a n1 ∧ f a n1 = .ub n' := by
  change (match m n with | .ok a n => f a n | .fail n => .fail n | .blocked n => .blocked n | .ub n => .ub n) = NR.ub n' at h
  cases hm : m n with
  | ok a n1 => rw [hm] at h; exact .inr ⟨a, n1, rfl, h⟩
  | fail n1 => rw [hm] at h; cases h
  | blocked n1 => rw [hm] at h; cases h
  | ub n1 => rw [hm] at h; cases h; exact .inl rfl

theorem orFail_ub {α : Type} {m : M α} {n n' : N} (h : orFail m n = .ub n') : m n = .ub n' := by
  unfold orFail at h
  cases hm : m n <;> rw [hm] at h <;> cases h
  rfl

theorem over_get (buf x : Bytes) (pos : Int) (i : Nat) (h0 : 0 ≤ pos) (h : pos + x.length ≤ buf.length) :
    (over buf pos.toNat x)[i]? = if pos ≤ i ∧ (i : Int) < pos + x.length then x[((i : Int) - pos).toNat]? else buf[i]? := by
  obtain ⟨p, rfl⟩ : ∃ p : Nat, pos = p := ⟨pos.toNat, by omega⟩
  have hk : ((i : Int) - p).toNat = i - p := by omega
  rw [Int.toNat_natCast, hk]
  unfold over
  rw [List.getElem?_append, List.length_take, Nat.min_eq_left (by omega)]
  split
  · rw [if_neg (by omega), List.getElem?_take, if_pos ‹_›]
  · rw [List.getElem?_append]
    split
    · rw [if_pos (by omega)]
    · rw [if_neg (by omega), List.getElem?_drop]
      congr 1
      omega

/-! ### the operations -/

/-- C74: the public point is at most 133 bytes long, whatever the key process sends. -/
theorem c74_mulgen (curve : Nat) : Any (mulgen curve) fun r => ∀ x, r = some x → x.length ≤ 133 :=
  .orFail (.bind (.write _) fun _ _ => .bind (.write _) fun _ _ => (Any.readmax _).mono fun x h y e => by cases e; exact h) (by nofun)

/-- C74: a signature fits the space for it. -/
theorem c74_sign (algo : Nat) (data : Bytes) (max : Nat) : Any (dosign algo data max) fun r => ∀ x, r = some x → x.length ≤ max :=
  .orFail (.bind (.write _) fun _ _ => .bind (.write _) fun _ _ => .bind (.write _) fun _ _ =>
    (Any.readmax _).mono fun x h y e => by cases e; exact h) (by nofun)

/-- C74: the PRF's output has exactly the length asked for (random bytes on failure). -/
theorem c74_prf (len : Nat) (label : Bytes) (seeds : List Bytes) (rnd : Bytes) (hr : rnd.length = len) :
    Any (prf len label seeds rnd) fun x => x.length = len := by
  refine .bind (P := fun r => ∀ x, r = some x → x.length = len) (.orFail ?_ (by nofun)) fun r h => .pure ?_
  · split
    · exact .fail
    · split
      · exact .bind (.write _) fun _ _ => .bind (.write _) fun _ _ => .bind (.write _) fun _ _ => .bind (.write _) fun _ _ =>
          (Any.readall _).mono fun x h y e => by cases e; exact h
      · exact .fail
  · cases r with
    | none => exact hr
    | some x => exact h x rfl

/-- C74: with 64 bytes of room on both sides of a record of `len` bytes at `at_`, nothing is
stored outside the buffer and only where the result is. -/
theorem c74_decrypt_partial (buf : Bytes) (at_ len type version : Nat) (h1 : 64 ≤ at_) (h2 : at_ + len + 64 ≤ buf.length) :
    Any (decryptTo buf at_ len type version) fun r => ∀ o x b, r = some (o, x, b) →
      -64 ≤ o ∧ o ≤ 64 ∧ 0 < x.length ∧ x.length ≤ len ∧ b.length = buf.length ∧
      ∀ i : Nat, b[i]? = if (at_ : Int) + o ≤ i ∧ (i : Int) < at_ + o + x.length then x[((i : Int) - (at_ + o)).toNat]? else buf[i]? := by
  refine .orFail (.bind (P := fun _ => True) (.lift (a := (buf.drop at_).take len) ?_ trivial) fun data _ =>
    .bind (.askRecord _ _ _ _) fun o ho => .bind (.readmaxTo _ _ _ (by omega) (by omega)) fun r hr => ?_) (by nofun)
  · unfold Ec.readN
    rw [if_pos (by simp; omega)]
  · obtain ⟨x, b⟩ := r
    obtain ⟨h3, h4⟩ := hr
    simp only at h3 h4 ⊢
    split
    · exact .fail
    · refine .pure ?_
      rintro o' x' b' e
      cases e
      refine ⟨ho.1, ho.2, by omega, h3, ?_, ?_⟩
      · rw [h4, over_length _ _ _ (by omega)]
      · intro i
        rw [h4]
        exact over_get _ _ _ _ (by omega) (by omega)

/-- C74: the same for encryption, which may add 85 bytes. -/
theorem c74_encrypt_partial (buf : Bytes) (at_ len type version : Nat) (h1 : 64 ≤ at_) (h2 : at_ + len + 85 + 64 ≤ buf.length) :
    Any (encryptTo buf at_ len type version) fun r => ∀ o x b, r = some (o, x, b) →
      -64 ≤ o ∧ o ≤ 64 ∧ x.length ≤ len + 85 ∧ b.length = buf.length ∧
      ∀ i : Nat, b[i]? = if (at_ : Int) + o ≤ i ∧ (i : Int) < at_ + o + x.length then x[((i : Int) - (at_ + o)).toNat]? else buf[i]? := by
  refine .orFail (.bind (P := fun _ => True) (.lift (a := (buf.drop at_).take len) ?_ trivial) fun data _ =>
    .bind (.askRecord _ _ _ _) fun o ho => .bind (.readmaxTo _ _ _ (by omega) (by omega)) fun r hr => ?_) (by nofun)
  · unfold Ec.readN
    rw [if_pos (by simp; omega)]
  · obtain ⟨x, b⟩ := r
    obtain ⟨h3, h4⟩ := hr
    simp only at h3 h4 ⊢
    refine .pure ?_
    rintro o' x' b' e
    cases e
    refine ⟨ho.1, ho.2, h3, ?_, ?_⟩
    · rw [h4, over_length _ _ _ (by omega)]
    · intro i
      rw [h4]
      exact over_get _ _ _ _ (by omega) (by omega)

/-- C74: fetching a chain is safe too, unless the answer begins with the length -2^63. -/
theorem c74_getcert_partial {γ : Type} (allocOk : Nat → Bool) (parse : Bytes → Bytes → Option γ) (fn : Bytes) (n n' : N)
    (h : getcert allocOk parse fn n = .ub n') : uint64_unpack (n.fr.src.take 8) = llmin := by
  have hr : ∀ m m' : N, readalloc allocOk m = .ub m' → uint64_unpack (m.fr.src.take 8) = llmin := by
    intro m m' h
    unfold readalloc pipe_readalloc at h
    cases h1 : Rw.readall m.fr 8 with
    | none => rw [h1] at h; cases h
    | some v =>
      obtain ⟨r, num, fd⟩ := v
      rw [h1] at h
      obtain ⟨e1, _, -, e3⟩ := Rw.c13_readall _ _ _ _ _ h1
      rcases e3 with ⟨rfl, hl⟩ | ⟨rfl, -⟩
      · rw [e1, List.take_append_of_le_length (Nat.le_of_eq hl.symm), List.take_of_length_le (Nat.le_of_eq hl)]
        simp only [Option.bind_eq_bind, Option.bind_some] at h
        rw [if_neg (by decide)] at h
        by_cases hneg : uint64_unpack num < 0
        · rw [if_pos hneg] at h
          by_cases hm : uint64_unpack num = llmin
          · exact hm
          · rw [if_neg hm] at h; cases h
        · rw [if_neg hneg] at h
          by_cases ha : allocOk (uint64_unpack num).toNat = false
          · rw [if_pos ha] at h; cases h
          · rw [if_neg ha] at h
            cases h2 : Rw.readall fd (uint64_unpack num) with
            | none => rw [h2] at h; cases h
            | some v =>
              obtain ⟨r, x, fd'⟩ := v
              rw [h2] at h
              simp only [Option.bind_some] at h
              by_cases hr : r = -1
              · rw [if_pos hr] at h; cases h
              · rw [if_neg hr] at h; cases h
      · cases h
  rcases bind_ub (orFail_ub h) with hw | ⟨u, m, hw, h⟩
  · exact absurd hw ((Any.write _ n).1 _)
  · have hm : m.fr = n.fr := by
      unfold write at hw
      split at hw
      · cases hw
      · split at hw <;> cases hw
        rfl
    rcases bind_ub h with h | ⟨a, m', hra, h⟩
    · rw [← hm]; exact hr _ _ h
    · cases hp : parse a fn <;> rw [hp] at h <;> cases h

/-! ### the same operations without memory -/

theorem bind_ok {α β : Type} {m : M α} {f : α → M β} {n n' : N} {b : β} (h : (m >>= f) n = .ok b n') :
    ∃ a n1, m n = .ok a n1 ∧ f a n1 = .ok b n' := by
  change (match m n with | .ok a n => f a n | .fail n => .fail n | .blocked n => .blocked n | .ub n => .ub n) = NR.ok b n' at h
  cases hm : m n <;> rw [hm] at h
  case ok a n1 => exact ⟨a, n1, rfl, h⟩
  all_goals cases h

theorem bind_of_ok {α β : Type} {m : M α} (f : α → M β) {n n1 : N} {a : α} (h : m n = .ok a n1) : (m >>= f) n = f a n1 := by
  change (match m n with | .ok a n => f a n | .fail n => .fail n | .blocked n => .blocked n | .ub n => .ub n) = f a n1
  rw [h]

theorem orFail_some {α : Type} {m : M α} {n n' : N} {a : α} (h : orFail m n = .ok (some a) n') : m n = .ok a n' := by
  unfold orFail at h
  cases hm : m n <;> rw [hm] at h <;> cases h
  rfl

theorem readmaxTo_readmax {buf : Bytes} {pos : Int} {k : Nat} {n n' : N} {r : Bytes × Bytes} (h : readmaxTo buf pos k n = .ok r n') :
    readmax k n = .ok r.1 n' := by
  unfold readmaxTo at h
  unfold readmax
  split at h
  · cases h
  · split at h
    · cases h
    · split at h
      · cases h
      · rw [if_neg ‹_›]
        cases h
        rfl

/-- The two models of decryption agree: what C56 says of the one holds for the other. -/
theorem decryptTo_decrypt (buf : Bytes) (at_ len type version : Nat) (n n' : N) (o : Int) (x b : Bytes) (hl : at_ + len ≤ buf.length)
    (h : decryptTo buf at_ len type version n = .ok (some (o, x, b)) n') :
    decrypt type version ((buf.drop at_).take len) n = .ok (some (o, x)) n' := by
  obtain ⟨data, n1, h1, h⟩ := bind_ok (orFail_some h)
  obtain ⟨o', n2, h2, h⟩ := bind_ok h
  obtain ⟨r, n3, h3, h⟩ := bind_ok h
  unfold Ec.readN at h1
  rw [if_pos (by simp; omega)] at h1
  cases h1
  unfold decrypt orFail
  have hd : ((buf.drop at_).take len).length = len := by simp; omega
  rw [bind_of_ok _ h2, bind_of_ok _ (by rw [hd]; exact readmaxTo_readmax h3)]
  obtain ⟨x', b'⟩ := r
  simp only at h ⊢
  by_cases h0 : x'.length = 0
  · rw [if_pos h0] at h; cases h
  · rw [if_neg h0] at h ⊢
    cases h
    rfl

theorem encryptTo_encrypt (buf : Bytes) (at_ len type version : Nat) (n n' : N) (o : Int) (x b : Bytes) (hl : at_ + len ≤ buf.length)
    (h : encryptTo buf at_ len type version n = .ok (some (o, x, b)) n') :
    encrypt type version ((buf.drop at_).take len) n = .ok (some (o, x)) n' := by
  obtain ⟨data, n1, h1, g1⟩ := bind_ok (orFail_some h)
  obtain ⟨o', n2, h2, g2⟩ := bind_ok g1
  obtain ⟨r, n3, h3, g3⟩ := bind_ok g2
  unfold Ec.readN at h1
  rw [if_pos (by simp; omega)] at h1
  cases h1
  unfold encrypt orFail
  have hd : ((buf.drop at_).take len).length = len := by simp; omega
  rw [bind_of_ok _ h2, bind_of_ok _ (by rw [hd]; exact readmaxTo_readmax h3)]
  have h : NR.ok (o', r.1, r.2) n3 = NR.ok (o, x, b) n' := g3
  cases h
  rfl

/-! ### what a hostile key process can do -/

/-- What a run ended with, for the concrete runs below: 2 undefined, 1 success with a
result, 0 success without. -/
def kind {α : Type} : NR (Option α) → Option Nat
  | .ub _ => some 2
  | .ok (some _) _ => some 1
  | .ok none _ => some 0
  | _ => none

theorem kind_ub {α : Type} {r : NR (Option α)} (h : kind r = some 2) : ∃ n, r = .ub n := by
  cases r with
  | ok a n => cases a <;> cases h
  | fail n => cases h
  | blocked n => cases h
  | ub n => exact ⟨n, rfl⟩

/-- The key process sent `src`; all calls complete at once. -/
def after (src : Bytes) : N := ⟨⟨[], List.replicate 20 (.data 100)⟩, ⟨src, List.replicate 20 (.data 100)⟩⟩

/-- The promise fails for a record without 64 bytes of the buffer before it. BearSSL's records begin 5
bytes after the start of its buffer: with offset -64 the network process stores 59
bytes before the buffer, where the engine's own state ends (tls.h:43-44). -/
theorem c74_before_buffer : ∃ n n', decryptTo (List.replicate 200 7) 5 3 23 0x0303 n = .ub n' :=
  ⟨after (uint64_pack 1 ++ [192] ++ uint64_pack 1 ++ [9]), kind_ub (by decide +kernel)⟩

/-- An honest answer: one byte, 8 bytes further on. -/
example : decryptTo (List.replicate 200 7) 64 13 23 0x0303 (after (uint64_pack 1 ++ [8] ++ uint64_pack 1 ++ [9])) =
    .ok (some (8, [9], (List.replicate 200 7).set 72 9))
      ⟨⟨uint64_pack 1 ++ [1] ++ uint64_pack 4 ++ [23, 0, 0, 0] ++ uint64_pack 4 ++ [3, 3, 0, 0] ++ uint64_pack 13 ++ List.replicate 13 7,
        List.replicate 12 (.data 100)⟩, ⟨[], List.replicate 16 (.data 100)⟩⟩ := by decide +kernel

/-- A hostile one is refused: the offset 65, or -65. -/
example : kind (decryptTo (List.replicate 200 7) 64 13 23 0x0303 (after (uint64_pack 1 ++ [65] ++ uint64_pack 1 ++ [9]))) = some 0 ∧
    kind (decryptTo (List.replicate 200 7) 64 13 23 0x0303 (after (uint64_pack 1 ++ [191] ++ uint64_pack 1 ++ [9]))) = some 0 := by
  decide +kernel

/-- The length -2^63 makes the network process negate the least `long long` (pipe.c:191-194). -/
theorem c74_getcert_negation : ∃ n n', getcert (γ := Unit) (fun _ => true) (fun _ _ => none) b!"a" n = .ub n' :=
  ⟨after [0, 0, 0, 0, 0, 0, 0, 128], kind_ub (by decide +kernel)⟩

/-- Other negative lengths are failures. -/
example : kind (getcert (γ := Unit) (fun _ => true) (fun _ _ => none) b!"a" (after (uint64_pack (-2)))) = some 0 := by decide +kernel

end Key.Net
