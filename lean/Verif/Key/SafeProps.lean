import Verif.Key.TraceProps
/-
C55: bounds on what the key process stores and hands on.
-/
namespace Key
open Io Pipe Pipe.Spec Spec

/-- C55: undefined behaviour arises only inside an external function that was called
outside its contract: the model's own reads and writes all stay inside the declared
buffers. -/
theorem c55_own_buffers (p : P) (hp : Lawful p) (inp : RFd) (out : WFd) (s : S)
    (h : keyjail p ⟨inp, out, []⟩ = .ub s) : Bad p s.log := by
  have := keyjail_tr hp inp.src out.out ⟨inp, out, []⟩ ⟨.start, ⟨[], .nil, rfl⟩, ⟨[], .nil, by simp⟩⟩
  rw [h] at this
  exact this.2

/-- C55: the sizes of what is handed to the external functions. -/
theorem c55_fields (p : P) (hp : Lawful p) (inp : RFd) (out : WFd) :
    (∀ sec h d, Act.sign sec h d ∈ log p inp out → d.length ≤ 2048) ∧
    (∀ label seed, Act.prf label seed ∈ log p inp out → label.length = 16 ∧ seed.length ≤ 48) ∧
    (∀ t v x, Act.decrypt t v x ∈ log p inp out → x.length ≤ 16709) ∧
    (∀ t v x, Act.encrypt t v x ∈ log p inp out → x.length ≤ 16709) := by
  obtain ⟨q, ht⟩ := log_trace p hp inp out
  refine ⟨?_, ?_, ?_, ?_⟩
  · intro sec h d hm
    obtain ⟨l1, l2, e⟩ := List.append_of_mem hm
    rw [e] at ht
    obtain ⟨p', q', h1, hs⟩ := trace_split ht
    cases hs
    cases h1 with | step _ hs => cases hs with | digest h1 h2 => omega
  · intro label seed hm
    obtain ⟨l1, l2, e⟩ := List.append_of_mem hm
    rw [e] at ht
    obtain ⟨p', q', h1, hs⟩ := trace_split ht
    cases hs
    cases h1 with | step h1 hs => cases hs with | seed h2 h3 =>
      cases h1 with | step h1 hs => cases hs with | seedLen h4 =>
        cases h1 with | step h1 hs => cases hs with | label h5 => exact ⟨h5, by omega⟩
  · intro t v x hm
    obtain ⟨l1, l2, e⟩ := List.append_of_mem hm
    rw [e] at ht
    obtain ⟨p', q', h1, hs⟩ := trace_split ht
    cases hs
    cases h1 with | step h1 hs => cases hs with | decData h2 => exact h2
  · intro t v x hm
    obtain ⟨l1, l2, e⟩ := List.append_of_mem hm
    rw [e] at ht
    obtain ⟨p', q', h1, hs⟩ := trace_split ht
    cases hs
    cases h1 with | step h1 hs => cases hs with | encData h2 => exact h2

/-- C55: what the process answers: after a PRF request twelve bytes, which is less
than any key; after a record an offset within the slack, then at most the buffer. -/
theorem c55_answers (p : P) (hp : Lawful p) (inp : RFd) (out : WFd) (l1 l2 : List Act) (a : Act) (y : Bytes)
    (h : log p inp out = l1 ++ a :: .sent y :: l2) :
    (∀ label seed, a = .prf label seed → y.length = 12) ∧
    (∀ t v x, a = .decrypt t v x ∨ a = .encrypt t v x → ∃ b, y = [b] ∧ -64 ≤ schar b ∧ schar b ≤ 64) := by
  obtain ⟨q, ht⟩ := log_trace p hp inp out
  rw [h, show l1 ++ a :: .sent y :: l2 = (l1 ++ [a]) ++ .sent y :: l2 by simp] at ht
  obtain ⟨p', q', h1, hs⟩ := trace_split ht
  generalize hl : l1 ++ [a] = l at h1
  constructor
  · rintro label seed rfl
    cases h1 with
    | start => simp at hl
    | step h1 hs' =>
      have := List.append_inj' hl rfl
      simp at this
      obtain ⟨_, rfl⟩ := this
      cases hs'
      cases hs with | prfSent h => exact h
  · intro t v x ha
    cases h1 with
    | start => simp at hl
    | step h1 hs' =>
      have := List.append_inj' hl rfl
      simp at this
      obtain ⟨_, rfl⟩ := this
      rcases ha with rfl | rfl
      · cases hs'
        cases hs with | decOff h1 h2 => exact ⟨_, rfl, h1, h2⟩
      · cases hs'
        cases hs with | encOff h1 h2 => exact ⟨_, rfl, h1, h2⟩

/-- The external functions never leave their contract, whatever they are given. -/
structure Total (p : P) : Prop where
  sign : ∀ sec h d, p.doSign sec h d ≠ .ub
  dec : ∀ st t v x, ∃ st' r, p.dec st t v x = .ok (st', r) ∧ ∀ raw y, r = some (raw, y) → -64 ≤ raw ∧ raw + y.length ≤ 16709
  enc : ∀ st t v x, ∃ st' raw y, p.enc st t v x = .ok (st', raw, y) ∧ -64 ≤ raw ∧ raw + y.length ≤ 16709

/-- C55, partial: with external functions that check their arguments, the only
undefined behaviour left is a PRF label without NUL. Missing for the full claim: the
process checks neither that, nor the digest and record lengths (`c55_label`,
`c55_encrypt_overrun`, `c55_digest`). -/
theorem c55_safe_partial (p : P) (hp : Lawful p) (ht : Total p) (inp : RFd) (out : WFd) (s : S)
    (h : keyjail p ⟨inp, out, []⟩ = .ub s) : ∃ l label seed, s.log = l ++ [.prf label seed] ∧ 0 ∉ label := by
  obtain ⟨l, a, e, hb⟩ := c55_own_buffers p hp inp out s h
  cases a with
  | sign sec h d => exact absurd hb (ht.sign _ _ _)
  | prf label seed => exact ⟨l, label, seed, e, hb⟩
  | decrypt t v x =>
    obtain ⟨st, hb⟩ := hb
    obtain ⟨st', r, e, hr⟩ := ht.dec st t v x
    rcases hb with hb | ⟨_, raw, y, hb, hn⟩
    · rw [hb] at e; cases e
    · rw [hb] at e; cases e; exact absurd (hr raw y rfl) hn
  | encrypt t v x =>
    obtain ⟨st, hb⟩ := hb
    obtain ⟨st', raw', y', e, hr⟩ := ht.enc st t v x
    rcases hb with hb | ⟨_, raw, y, hb, hn⟩
    · rw [hb] at e; cases e
    · rw [hb] at e; cases e; exact absurd hr hn
  | _ => exact hb.elim

/-! A concrete key process: X25519 with a trivial arithmetic, files that load, an
engine that adds 16 bytes. -/

def toyEc : Ec.Impl where
  mulgen _ s := s.take 32
  mul _ p _ := (p, true)
  x448 := none
  lib25519 := none

def toyEnv (_ : Bytes) : Pem.Env where
  opened := true
  stat := some (true, Pem.sampleFile.length)
  alloc1 := true
  alloc2 := true
  data n := if n = Pem.sampleFile.length then some Pem.sampleFile else none
  line0 := List.replicate 65 0
  r1 := List.replicate 200 1
  r2 := List.replicate 200 2
  nonceRnd := List.replicate 12 3

def toy (alive : List Bool) : P where
  nojail := false
  certfn := List.replicate 1024 0
  loads := [⟨List.replicate 32 7, toyEnv, 2⟩]
  cipher k n i := k.headD 0 + n.headD 0 + UInt8.ofNat i
  nonce := none
  nonceRnd := List.replicate 12 3
  jail := true
  sk := List.replicate 66 9
  pk := List.replicate 133 0
  data := List.replicate 2048 0
  ec := toyEc
  doSign _ _ d := if d.length ≤ 64 then .ok d else .ub
  σ := Unit
  install _ _ _ _ := ()
  prf _ _ n _ _ := List.replicate n 5
  dec _ _ _ x := .ok ((), if x.length < 16 then none else some (0, x.take (x.length - 16)))
  enc _ _ _ x := .ok ((), -5, x ++ List.replicate 21 0)
  alive := alive

theorem toy_mulgen (c : Nat) (s : Bytes) : (toyEc.mulgen c s).length ≤ 133 := by
  simp only [toyEc, List.length_take]
  omega

theorem toy_lawful (alive : List Bool) : Lawful (toy alive) where
  certfn := List.length_replicate
  loads := by
    intro l hl fn
    simp only [toy, List.mem_singleton] at hl
    subst hl
    have e : Pem.sampleFile.length = 118 := by decide
    refine ⟨List.length_replicate, ?_, ?_⟩
    · intro n d h
      simp only [toyEnv] at h
      split at h
      · cases h; rename_i h; exact h.symm
      · cases h
    · intro b n h
      simp only [toyEnv] at h ⊢
      cases h
      rw [List.length_replicate, List.length_replicate, e]
      omega
  sk := List.length_replicate
  pk := List.length_replicate
  data := List.length_replicate
  ec := { mulgen := toy_mulgen, mul := fun _ _ _ => rfl, x448 := (by intro g m h; cases h), lib25519 := (by intro g m h; cases h) }
  sign := by
    intro sec h d sig hs
    simp only [toy] at hs
    split at hs
    · cases hs; omega
    · cases hs
  prf := fun _ _ n _ _ => List.length_replicate

/-- Frames of a list of messages. -/
def enframe (ms : List Bytes) : Bytes := ms.flatMap fun m => uint64_pack m.length ++ m

/-- Requests up to the point where record requests are served. -/
def hello (digest : Bytes) : List Bytes :=
  [b!"dir/../cert.pem\x00", [], [29], [4], uint64_pack 2048, digest,
   List.replicate 32 1, List.replicate 32 2, [3, 3], [0x2b, 0xc0], List.replicate 32 3, List.replicate 32 4]

def runToy (alive : List Bool) (ms : List Bytes) : R Unit :=
  keyjail (toy alive) ⟨⟨enframe ms, List.replicate 100 (.data 4095)⟩, ⟨[], List.replicate 100 (.data 4095)⟩, []⟩

/-- The run ends in undefined behaviour. -/
def R.isUb {α : Type} : R α → Bool
  | .ub _ => true
  | _ => false

/-- A complete session: both calls on the private key happen, and the PRF is served. -/
example : let s := (runToy [true, true] (hello (List.replicate 32 6) ++ [[0], b!"client finished\x00", uint64_pack 48, List.replicate 48 8])).st
    s.log.length = 27 ∧ (s.log.filter isSign).length = 1 ∧ (s.log.filter isAgree).length = 1 ∧
      Act.load b!"dir/:./cert.pem" (some Pem.sampleFile) ∈ s.log ∧
      s.log.drop 25 = [.prf b!"client finished\x00" (List.replicate 48 8), .sent (List.replicate 12 5)] := by decide +kernel

/-- C55 is violated: a PRF label of sixteen bytes without NUL makes the PRF read past
the label (tls_keyjail.c:313-323, the label is used as a string). -/
theorem c55_label :
    let r := runToy [true, true] (hello (List.replicate 32 6) ++ [[0], b!"client finished!", uint64_pack 48, List.replicate 48 8])
    r.isUb = true ∧ r.st.log.drop 24 = [.got (List.replicate 48 8), .prf b!"client finished!" (List.replicate 48 8)] := by
  decide +kernel

/-- C55 is violated: a digest of any length up to 2048 is handed to a signer that has
room for 64 bytes (tls_keyjail.c:166-176, tls_crypto_*_do_sign copies into hv[64]). -/
theorem c55_digest :
    let r := runToy [true] (hello (List.replicate 65 6))
    r.isUb = true ∧ ∃ sec ∈ [Pem.sampleFile.drop 59], r.st.log.drop 11 = [.sign sec 4 (List.replicate 65 6)] := by
  decide +kernel

/-! The record buffer: the space for what encryption appends is missing. -/

/-- A read that one system call satisfies. -/
theorem readall_one (x tl : Bytes) (evs : List RdEv) (h0 : x ≠ []) (m : Nat) (hm : x.length ≤ m + 1) (hc : x.length ≤ Rw.CHUNK) :
    Rw.readall ⟨x ++ tl, .data m :: evs⟩ x.length = some (0, x, ⟨tl, evs⟩) := by
  unfold Rw.readall
  rw [Int.toNat_natCast]
  obtain ⟨k, hk⟩ : ∃ k, x.length = k + 1 := ⟨x.length - 1, by have := List.length_pos_iff.mpr h0; omega⟩
  have hg : got (x ++ tl) (min (k + 1) Rw.CHUNK) m = x := by
    unfold got
    rw [← hk, show min (min x.length Rw.CHUNK) (m + 1) = x.length by omega, List.take_left]
  rw [hk, Rw.readallLoop, hg, if_neg (by omega), List.drop_left, hk, Nat.sub_self]
  cases evs <;> simp [Rw.readallLoop]

theorem pack_length (n : Nat) : (uint64_pack n).length = 8 := by
  unfold uint64_pack
  exact packLoop_length 8 _

theorem readHeader (n : Nat) (hn : n < 2 ^ 64) (x : Bytes) (evs : List RdEv) (m : Nat) (hm : 7 ≤ m) :
    Rw.readall ⟨uint64_pack n ++ x, .data m :: evs⟩ 8 = some (0, uint64_pack n, ⟨x, evs⟩) := by
  have := readall_one (uint64_pack n) x evs (by intro h; have := pack_length n; rw [h] at this; cases this) m
    (by rw [pack_length]; omega) (by rw [pack_length]; decide)
  rw [pack_length] at this
  exact this

theorem readallTo_one (buf x tl : Bytes) (evs : List RdEv) (h0 : x ≠ []) (m : Nat) (hm : 7 ≤ m) (hm' : x.length ≤ m + 1)
    (hc : x.length ≤ LIMIT) (hb : buf.length = x.length) (s : S)
    (hs : s.inp = ⟨uint64_pack x.length ++ x ++ tl, .data m :: .data m :: evs⟩) :
    readallTo buf x.length s = .ok x { s with inp := ⟨tl, evs⟩, log := s.log ++ [.got x] } := by
  have hL : x.length ≤ 1048576 := hc
  unfold readallTo pipe_readall
  rw [if_neg (by omega), hs, List.append_assoc, readHeader _ (by omega) _ _ _ hm]
  simp only [Option.bind_eq_bind, Option.bind_some]
  rw [if_neg (by decide), unpackU_header (header_pack _ (by omega)), if_neg (by simp), readall_one x tl evs h0 m hm' hc]
  simp only []
  rw [copyN_over _ _ _ (by omega)]
  simp only []
  rw [if_neg (by decide)]
  congr 1
  simp [over, hb]

theorem readmaxTo_one (buf x tl : Bytes) (off bound : Nat) (evs : List RdEv) (h0 : x ≠ []) (m : Nat) (hm : 7 ≤ m) (hm' : x.length ≤ m + 1)
    (hc : bound ≤ LIMIT) (hx : x.length ≤ bound) (hb : off + bound ≤ buf.length) (s : S)
    (hs : s.inp = ⟨uint64_pack x.length ++ x ++ tl, .data m :: .data m :: evs⟩) :
    readmaxTo buf off bound s = .ok (over buf off x, x.length) { s with inp := ⟨tl, evs⟩, log := s.log ++ [.got x] } := by
  have hL : bound ≤ 1048576 := hc
  unfold readmaxTo pipe_readmax
  rw [if_neg (by omega), hs, List.append_assoc, readHeader _ (by omega) _ _ _ hm]
  simp only [Option.bind_eq_bind, Option.bind_some]
  rw [if_neg (by decide), unpackU_header (header_pack _ (by omega)), if_neg (by omega), readall_one x tl evs h0 m hm' (by unfold Rw.CHUNK; omega)]
  simp only [Option.bind_some]
  rw [if_neg (by decide)]
  simp only []
  rw [copyN_over _ _ _ (by omega)]
  simp only []
  rw [if_neg (by decide)]

/-- C55 is violated: a record of 16709 bytes fills the buffer, so an engine that
appends anything (each of them appends a tag or a MAC) writes past its end
(tls_keyjail.c:367-398). -/
theorem c55_encrypt_overrun (p : P) (st st' : p.σ) (t v x tl rec : Bytes) (raw : Int) (evs : List RdEv) (m : Nat) (s : S)
    (ht : t.length = 4) (hv : v.length = 4) (hx : x.length = 16709) (hm : 16709 ≤ m)
    (hs : s.inp = ⟨(uint64_pack 4 ++ t) ++ ((uint64_pack 4 ++ v) ++ ((uint64_pack 16709 ++ x) ++ tl)), List.replicate 6 (.data m) ++ evs⟩)
    (henc : p.enc st (leNat t) (leNat v) x = .ok (st', raw, rec)) (hr : raw + rec.length > 16709) :
    ∃ s', serveEncrypt p st s = .ub s' := by
  have hne : ∀ y : Bytes, y.length ≠ 0 → y ≠ [] := fun y h e => h (by rw [e]; rfl)
  have h1 := readallTo_one (List.replicate 4 0) t ((uint64_pack 4 ++ v) ++ ((uint64_pack 16709 ++ x) ++ tl)) (List.replicate 4 (.data m) ++ evs) (hne _ (by omega)) m (by omega) (by omega)
    (by rw [ht]; decide) (by rw [ht]; rfl) s (by rw [hs, ht]; rfl)
  rw [ht] at h1
  have h2 := readallTo_one (List.replicate 4 0) v ((uint64_pack 16709 ++ x) ++ tl) (List.replicate 2 (.data m) ++ evs) (hne _ (by omega)) m (by omega) (by omega)
    (by rw [hv]; decide) (by rw [hv]; rfl) _ (by rw [hv]; rfl : ({ s with inp := ⟨(uint64_pack 4 ++ v) ++ ((uint64_pack 16709 ++ x) ++ tl), List.replicate 4 (.data m) ++ evs⟩, log := s.log ++ [.got t] } : S).inp = _)
  rw [hv] at h2
  have h3 := readmaxTo_one (List.replicate (recMax + 64) 0) x tl 64 recMax evs (hne _ (by omega)) m (by omega) (by omega) (by decide)
    (by rw [hx]; decide) (by rw [List.length_replicate]; omega) _ (by rw [hx]; rfl : ({ s with inp := ⟨(uint64_pack 16709 ++ x) ++ tl, List.replicate 2 (.data m) ++ evs⟩, log := s.log ++ [.got t] ++ [.got v] } : S).inp = _)
  have hf : ((over (List.replicate (recMax + 64) 0) 64 x).drop 64) = x := by
    unfold over
    rw [List.drop_append, List.length_take, List.length_replicate, List.drop_of_length_le (by rw [List.length_take, List.length_replicate]; omega),
      show 64 - min 64 (recMax + 64) = 0 by omega, List.drop_zero, List.nil_append,
      List.drop_of_length_le (l := List.replicate (recMax + 64) 0) (by rw [List.length_replicate, hx]; decide), List.append_nil]
  apply Exists.intro
  simp only [serveEncrypt, readRecord, bind, pure, h1, h2, h3, hf, Ec.readN_ok _ _ (Nat.le_refl _), lift, act, List.take_length, henc, place, hne]
  rw [if_neg]
  rintro ⟨_, h⟩
  have : recMax = 16709 := rfl
  omega

/-- The hypotheses are met: an engine that adds a header of 5 and a tag of 16. -/
example : (toy []).enc () 0 0 (List.replicate 16709 0) = .ok ((), -5, List.replicate 16709 0 ++ List.replicate 21 0) ∧
    (-5 : Int) + (List.replicate 16709 (0 : Byte) ++ List.replicate 21 0).length > 16709 := by
  refine ⟨rfl, ?_⟩
  rw [List.length_append, List.length_replicate, List.length_replicate]
  omega
end Key
