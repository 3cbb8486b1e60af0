import Verif.Conf.ChooseSpec
import Verif.Conf.Lemmas
import Verif.Path.Props
import Verif.Name.Props
import Verif.Key.Spec
/-
Property theorems: C58 (the choice of suite, certificate and hash), C67 (the certificate files).
-/
namespace Conf
open Spec Name.Spec Path.Spec

theorem bit_ne (n x : Nat) : (n >>> x) &&& 1 ≠ 0 ↔ n.testBit x = true := by
  simp [Nat.testBit]

theorem hash_ok (bf : Nat) : hash_choose bf = (([6, 5, 4, 2].filter (fun h => bf.testBit h)).head?).getD 0 := by
  have : ∀ l : List Nat, hashLoop bf l = ((l.filter (fun h => bf.testBit h)).head?).getD 0 := by
    intro l
    induction l with
    | nil => rfl
    | cons x l ih =>
      rw [hashLoop, List.filter_cons]
      by_cases h : bf.testBit x = true
      · rw [if_pos ((bit_ne bf x).mpr h), if_pos h]; rfl
      · rw [if_neg (fun g => h ((bit_ne bf x).mp g)), if_neg h, ih]
  exact this _

theorem shift_fits (t : Nat) : t >>> 12 = t / 2 ^ 12 := Nat.shiftRight_eq_div_pow t 12

/-- The suite that is picked. -/
theorem pick_ok (k hashes version : Nat) (st : List (Nat × Nat)) :
    (pick k hashes version st = none ∧ ∀ s ∈ st, ¬ Fits k s) ∨
    ∃ pre s post, st = pre ++ s :: post ∧ (∀ x ∈ pre, ¬ Fits k x) ∧ Fits k s ∧
      pick k hashes version st = some (s.1, algo k hashes version) := by
  induction st with
  | nil => exact .inl ⟨rfl, by simp⟩
  | cons a st ih =>
    obtain ⟨s, tt⟩ := a
    rw [pick]
    by_cases h1 : tt >>> 12 = ECDHE_ECDSA ∧ k = KEYTYPE_EC
    · refine .inr ⟨[], (s, tt), st, rfl, by simp, .inl ⟨by rw [← shift_fits]; exact h1.1, h1.2⟩, ?_⟩
      rw [if_pos h1]
      have hk : k = 2 := h1.2
      subst hk
      simp only [algo, hash_ok, sha1_ID, clientHashes, Nat.testBit_shiftRight, if_true]
      have : ∀ h, 8 + h = h + 8 := fun h => Nat.add_comm _ _
      simp only [this]
    · rw [if_neg h1]
      by_cases h2 : tt >>> 12 = ECDHE_RSA ∧ k = KEYTYPE_RSA
      · refine .inr ⟨[], (s, tt), st, rfl, by simp, .inr ⟨by rw [← shift_fits]; exact h2.1, h2.2⟩, ?_⟩
        rw [if_pos h2]
        have hk : k = 1 := h2.2
        subst hk
        simp [algo, hash_ok, clientHashes]
      · rw [if_neg h2]
        have hf : ¬ Fits k (s, tt) := by
          rintro (⟨g1, g2⟩ | ⟨g1, g2⟩)
          · exact h1 ⟨by rw [shift_fits]; exact g1, g2⟩
          · exact h2 ⟨by rw [shift_fits]; exact g1, g2⟩
        rcases ih with ⟨i1, i2⟩ | ⟨pre, x, post, i1, i2, i3, i4⟩
        · exact .inl ⟨i1, List.forall_mem_cons.mpr ⟨hf, i2⟩⟩
        · exact .inr ⟨(s, tt) :: pre, x, post, by simp [i1], List.forall_mem_cons.mpr ⟨hf, i2⟩, i3, i4⟩

/-- The file name that is built. -/
theorem copyfn_ok (buf a b : Bytes) (hb : buf.length = 1024) (ha : NoNul a) (hn : NoNul b) :
    ∀ full, full = a ++ (if b.length > 0 then c! '/' :: b else []) →
    (full.length < 1024 → ∃ rest, copyfn true buf a b = .ok (true, cstr (undot (collapse full)) rest) ∧
      (cstr (undot (collapse full)) rest).length = 1024) ∧
    (¬ full.length < 1024 → copyfn true buf a b = .ok (false, buf)) := by
  intro full hfull
  have hf : NoNul full := by
    rw [hfull]
    refine NoNul.append ha ?_
    split
    · exact NoNul.cons (by decide) hn
    · exact NoNul.nil
  obtain ⟨junk, hj, hp⟩ := Path.c11_exact full [] hf
  have hp : Path.fixpath (full ++ [0]) = .ok (cstr (undot (collapse full)) (junk ++ [])) := by
    simpa [cstr] using hp
  have hle := Path.c11_length full
  unfold copyfn
  simp only [Bool.true_eq_false, if_false, ← hfull, hp, Out.ok_bind, List.append_nil]
  have hlen : (cstr (undot (collapse full)) junk).length = full.length + 1 := by simp [cstr]; omega
  refine ⟨fun h => ?_, fun h => ?_⟩
  · rw [if_pos (by simp; omega)]
    rw [copyN_full _ _ _ _ (by simp [hlen]) (by simp; omega)]
    refine ⟨junk ++ buf.drop (full.length + 1), ?_, ?_⟩
    · simp only [Out.ok_bind, Out.pure_eq, List.take_zero, List.nil_append, Nat.zero_add, List.length_append, List.length_cons,
        List.length_nil]
      rw [List.take_of_length_le (by omega)]
      simp [cstr]
    · simp [cstr]; omega
  · rw [if_neg (by simp; omega)]; rfl

theorem noNul_fix (s : Bytes) (h : NoNul s) : NoNul (undot (collapse s)) := by
  rw [← Path.fp_spec]; exact Path.fp_noNul false s h

/-- After the chain was obtained. -/
theorem suited_ok {γ} (H : Hello) (getcert : Bytes → Answer γ) (last : Bool) (src : Bytes × Bool) (fn : Bytes) (k : Nat) (c : γ)
    (hf : FileFor H.name src fn) (hg : getcert fn = .chain k c) :
    Outcome H getcert true last src (some fn) (suited H k c) := by
  unfold suited
  rcases pick_ok k H.hashes H.version H.suites with ⟨h1, h2⟩ | ⟨pre, s, post, h1, h2, h3, h4⟩
  · rw [h1]; exact .unsuited rfl hf hg h2
  · rw [h4]; exact .suited rfl hf hg h1 h2 h3

/-- One source. -/
theorem source_ok {γ} (H : Hello) (alloc : Bool) (getcert : Bytes → Answer γ) (last : Bool) (src : Bytes × Bool) (certfn dns : Bytes)
    (hsrc : NoNul src.1) (hname : ∀ n, H.name = some n → NoNul n) (hc : certfn.length = 1024) (hd : dns.length = 256) :
    ∃ req next certfn', source H alloc getcert last src.1 src.2 certfn dns = .ok (req, next, certfn') ∧ certfn'.length = 1024 ∧
      Outcome H getcert (alloc && decide (rawLength H.name src < 1024)) last src req next := by
  obtain ⟨name, dir⟩ := src
  unfold source
  cases dir with
  | true =>
    simp only [if_true]
    cases hn : H.name with
    | none => exact ⟨_, _, _, rfl, hc, .noName rfl (by simp [hn])⟩
    | some sn =>
      have hsn := hname sn hn
      simp only []
      by_cases h0 : sn.length = 0
      · rw [if_pos h0]
        exact ⟨_, _, _, rfl, hc, .noName rfl (by
          rintro ⟨n, e, hl, _⟩
          rw [hn] at e; cases e
          exact hl (List.length_eq_zero_iff.mp h0))⟩
      · rw [if_neg h0]
        by_cases hv : ∃ ls, NameOf sn ls ∧ (∀ l ∈ ls, Label l) ∧ (wire ls).length ≤ 255
        · obtain ⟨ls, hv⟩ := hv
          have hp := (Name.c03_parsename_accepts dns sn [] _ hsn hd).mpr ⟨ls, hv.1, hv.2.1, hv.2.2, rfl⟩
          have hp : Name.parsename_ dns (some (sn ++ [0])) = _ := hp
          have hl : Lookup sn := ⟨fun e => h0 (by simp [e]), ls, hv⟩
          rw [hp]
          simp only [Out.ok_bind, Nat.one_ne_zero, if_false]
          cases alloc with
          | false => exact ⟨_, _, _, rfl, hc, .noRoom rfl⟩
          | true =>
            obtain ⟨g1, g2⟩ := copyfn_ok certfn name sn hc hsrc hsn (name ++ c! '/' :: sn) (by rw [if_pos (by omega)])
            have hraw : (name ++ c! '/' :: sn).length = rawLength (some sn) (name, true) := by
              simp [rawLength]; omega
            rw [hraw] at g1 g2
            by_cases hroom : rawLength (some sn) (name, true) < 1024
            · obtain ⟨rest, g, glen⟩ := g1 hroom
              rw [g]
              have hnn : NoNul (undot (collapse (name ++ c! '/' :: sn))) :=
                noNul_fix _ (NoNul.append hsrc (NoNul.cons (by decide) hsn))
              simp only [Out.ok_bind, Bool.true_eq_false, if_false, cstrOf_cstr _ _ hnn]
              have hf : FileFor H.name (name, true) (undot (collapse (name ++ c! '/' :: sn))) := .dir hn hl
              have hb : (true && decide (rawLength (some sn) (name, true) < 1024)) = true := by simp [hroom]
              rw [hb]
              cases hg : getcert (undot (collapse (name ++ c! '/' :: sn))) with
              | fail e =>
                simp only []
                by_cases he : e ≠ ENOENT ∨ last = true
                · rw [if_pos he]
                  exact ⟨_, _, _, rfl, glen, .failed rfl hf hg (.inr he)⟩
                · rw [if_neg he]
                  simp only [not_or, Bool.not_eq_true] at he
                  have e1 : e = 2 := Classical.not_not.mp he.1
                  subst e1
                  exact ⟨_, _, _, rfl, glen, .missing rfl hf hg rfl he.2⟩
              | chain k c => exact ⟨_, _, _, rfl, glen, suited_ok H getcert last _ _ k c hf hg⟩
            · rw [g2 hroom]
              exact ⟨_, _, _, rfl, hc, .noRoom (by simp; omega)⟩
        · obtain ⟨out, hp⟩ := Name.c03_parsename_rejects dns sn [] hsn hd hv
          have hp : Name.parsename_ dns (some (sn ++ [0])) = _ := hp
          rw [hp]
          exact ⟨_, _, _, rfl, hc, .noName rfl (by
            rintro ⟨n, e, _, hl⟩
            rw [hn] at e; cases e
            exact hv hl)⟩
  | false =>
    simp only [Bool.false_eq_true, if_false]
    cases alloc with
    | false => exact ⟨_, _, _, rfl, hc, .noRoom rfl⟩
    | true =>
      obtain ⟨g1, g2⟩ := copyfn_ok certfn name [] hc hsrc NoNul.nil name (by simp)
      by_cases hroom : name.length < 1024
      · obtain ⟨rest, g, glen⟩ := g1 hroom
        rw [g]
        have hnn : NoNul (undot (collapse name)) := noNul_fix _ hsrc
        simp only [Out.ok_bind, Bool.true_eq_false, if_false, cstrOf_cstr _ _ hnn]
        have hf : FileFor H.name (name, false) (undot (collapse name)) := .file
        have hb : (true && decide (rawLength H.name (name, false) < 1024)) = true := by simp [rawLength, hroom]
        rw [hb]
        cases hg : getcert (undot (collapse name)) with
        | fail e => exact ⟨_, _, _, rfl, glen, .failed rfl hf hg (.inl rfl)⟩
        | chain k c => exact ⟨_, _, _, rfl, glen, suited_ok H getcert last _ _ k c hf hg⟩
      · rw [g2 hroom]
        exact ⟨_, _, _, rfl, hc, .noRoom (by simp only [rawLength, hroom, decide_false, Bool.and_false])⟩

/-- **C58 (complete description).** For every client, every list of sources, every behaviour of the key
process and of the allocator: the choice is the one the specification describes. -/
theorem c58_choose {γ} (H : Hello) (alloc : Nat → Bool) (getcert : Nat → Bytes → Answer γ) (srcs : List (Bytes × Bool)) (certfn dns : Bytes)
    (hsrc : ∀ s ∈ srcs, NoNul s.1) (hname : ∀ n, H.name = some n → NoNul n) (hc : certfn.length = 1024) (hd : dns.length = 256) :
    ∃ reqs r, choose H alloc getcert srcs certfn dns = .ok (reqs, r) ∧ Decides H alloc getcert srcs reqs r := by
  induction srcs generalizing certfn with
  | nil => exact ⟨_, _, rfl, .none⟩
  | cons src rest ih =>
    obtain ⟨req, next, certfn', h1, h2, h3⟩ := source_ok H (alloc rest.length) (getcert rest.length) rest.isEmpty src certfn dns
      (hsrc src (by simp)) hname hc hd
    obtain ⟨name, dir⟩ := src
    rw [choose, h1]
    simp only [Out.ok_bind]
    cases next with
    | bad => exact ⟨_, _, rfl, .stop h3⟩
    | ok c => exact ⟨_, _, rfl, .use h3⟩
    | cont =>
      obtain ⟨reqs, r, g1, g2⟩ := ih certfn' (fun s hs => hsrc s (by simp [hs])) h2
      simp only [g1, Out.ok_bind]
      exact ⟨_, _, rfl, .next h3 g2⟩

/-- What a choice says, from the description. -/
theorem decides_some {γ} {H : Hello} {alloc : Nat → Bool} {getcert : Nat → Bytes → Answer γ} {srcs : List (Bytes × Bool)}
    {reqs : List Bytes} {r : Option (Choice γ)} (h : Decides H alloc getcert srcs reqs r) (c : Choice γ) (hr : r = some c) :
    ∃ before src after fn k pre s post, srcs = before ++ src :: after ∧ FileFor H.name src fn ∧
      getcert after.length fn = .chain k c.chain ∧ reqs.getLast? = some fn ∧
      H.suites = pre ++ s :: post ∧ (∀ x ∈ pre, ¬ Fits k x) ∧ Fits k s ∧ c.suite = s.1 ∧ c.algo = algo k H.hashes H.version := by
  induction h with
  | none => cases hr
  | stop _ => cases hr
  | use h =>
    cases hr
    rename_i src rest req
    cases h with
    | suited h1 h2 h3 h4 h5 h6 => exact ⟨[], src, rest, _, _, _, _, _, rfl, h2, h3, rfl, h4, h5, h6, rfl, rfl⟩
  | next _ _ ih =>
    rename_i src rest req reqs r _ _
    obtain ⟨before, s, after, fn, k, pre, x, post, i1, i2, i3, i4, i5⟩ := ih hr
    refine ⟨src :: before, s, after, fn, k, pre, x, post, by simp [i1], i2, i3, ?_, i5⟩
    rw [List.getLast?_append, i4]; rfl

/-- The engine's list of usable suites (br_ssl_server_get_client_suites): those the client offered
and the configuration enables (and that `usable` allows for the version and the curves), in the order of the configuration
if that is enforced and else of the client; each with its key exchange. -/
structure Engine (enforce : Bool) (offered enabled : List Nat) (usable : Nat → Bool) (suites : List (Nat × Nat)) : Prop where
  list : suites.map (·.1) = if enforce then enabled.filter (fun s => offered.contains s && usable s)
    else offered.filter (fun s => enabled.contains s && usable s)
  ecdsa : ∀ s ∈ suites, ∀ x e r, cipher x = some (e, r) → s.1 = e → s.2 / 2 ^ 12 = 2
  rsa : ∀ s ∈ suites, ∀ x e r, cipher x = some (e, r) → s.1 = r → s.2 / 2 ^ 12 = 1

/-- **C58.** The chosen suite was offered by the client, is enabled and usable, fits the key of the
certificate that is presented, and no suite before it in the order of preference does. -/
theorem c58_permitted {γ} (H : Hello) (alloc : Nat → Bool) (getcert : Nat → Bytes → Answer γ) (srcs : List (Bytes × Bool)) (certfn dns : Bytes)
    (hsrc : ∀ s ∈ srcs, NoNul s.1) (hname : ∀ n, H.name = some n → NoNul n) (hc : certfn.length = 1024) (hd : dns.length = 256)
    (enforce : Bool) (offered enabled : List Nat) (usable : Nat → Bool) (hE : Engine enforce offered enabled usable H.suites)
    (hconf : ∀ s ∈ enabled, ∃ x e r, cipher x = some (e, r) ∧ (s = e ∨ s = r))
    (reqs : List Bytes) (c : Choice γ) (h : choose H alloc getcert srcs certfn dns = .ok (reqs, some c)) :
    c.suite ∈ offered ∧ c.suite ∈ enabled ∧ usable c.suite = true ∧
    ∃ src ∈ srcs, ∃ fn i k x e r, FileFor H.name src fn ∧ getcert i fn = .chain k c.chain ∧ cipher x = some (e, r) ∧
      ((k = 2 ∧ c.suite = e) ∨ (k = 1 ∧ c.suite = r)) ∧
      ∃ pre post, (if enforce then enabled else offered) = pre ++ c.suite :: post ∧
        ∀ t ∈ pre, t ∈ offered → t ∈ enabled → usable t = true → ∀ y e' r', cipher y = some (e', r') →
          ¬ ((k = 2 ∧ t = e') ∨ (k = 1 ∧ t = r')) := by
  obtain ⟨reqs', r', h1, h2⟩ := c58_choose H alloc getcert srcs certfn dns hsrc hname hc hd
  rw [h] at h1
  cases h1
  obtain ⟨before, src, after, fn, k, pre, s, post, d1, d2, d3, d4, d5, d6, d7, d8, d9⟩ := decides_some h2 c rfl
  -- the order of preference
  have order : ∀ (base : List Nat) (p : Nat → Bool), H.suites.map (·.1) = base.filter p →
      p s.1 = true ∧ ∃ bp bq, base = bp ++ s.1 :: bq ∧ bp.filter p = pre.map (·.1) := by
    intro base p hl
    rw [d5, List.map_append, List.map_cons] at hl
    obtain ⟨l1, l2, e1, e2, e3⟩ := List.filter_eq_append_iff.mp hl.symm
    obtain ⟨m1, m2, f1, f2, f3, f4⟩ := List.filter_eq_cons_iff.mp e3
    exact ⟨f3, l1 ++ m1, m2, by simp [e1, f1], by
      rw [List.filter_append, e2, List.filter_eq_nil_iff.mpr f2, List.append_nil]⟩
  have hs : s ∈ H.suites := by rw [d5]; simp
  have fitsOf : ∀ t ∈ H.suites, ∀ y e' r', cipher y = some (e', r') → ((k = 2 ∧ t.1 = e') ∨ (k = 1 ∧ t.1 = r')) → Fits k t := by
    rintro t ht y e' r' hy (⟨rfl, h1⟩ | ⟨rfl, h1⟩)
    · exact .inl ⟨hE.ecdsa t ht y e' r' hy h1, rfl⟩
    · exact .inr ⟨hE.rsa t ht y e' r' hy h1, rfl⟩
  have preIn : ∀ t ∈ pre.map (·.1), ∀ y e' r', cipher y = some (e', r') → ¬ ((k = 2 ∧ t = e') ∨ (k = 1 ∧ t = r')) := by
    intro t ht y e' r' hy g
    obtain ⟨u, hu, rfl⟩ := List.mem_map.mp ht
    exact d6 u hu (fitsOf u (by rw [d5]; simp [hu]) y e' r' hy g)
  have key : s.1 ∈ offered ∧ s.1 ∈ enabled ∧ usable s.1 = true ∧
      ∃ bp bq, (if enforce then enabled else offered) = bp ++ s.1 :: bq ∧
        ∀ t ∈ bp, t ∈ offered → t ∈ enabled → usable t = true → t ∈ pre.map (·.1) := by
    have hl := hE.list
    cases enforce with
    | true =>
      obtain ⟨g1, bp, bq, g2, g3⟩ := order _ _ hl
      simp only [Bool.and_eq_true, List.contains_iff_mem] at g1
      refine ⟨g1.1, by rw [g2]; simp, g1.2, bp, bq, g2, fun t ht h1 h2 h3 => ?_⟩
      rw [← g3]; exact List.mem_filter.mpr ⟨ht, by simp [h1, h3]⟩
    | false =>
      obtain ⟨g1, bp, bq, g2, g3⟩ := order _ _ hl
      simp only [Bool.and_eq_true, List.contains_iff_mem] at g1
      refine ⟨by rw [g2]; simp, g1.1, g1.2, bp, bq, g2, fun t ht h1 h2 h3 => ?_⟩
      rw [← g3]; exact List.mem_filter.mpr ⟨ht, by simp [h2, h3]⟩
  obtain ⟨k1, k2, k3, bp, bq, k4, k5⟩ := key
  obtain ⟨x, e, r, hx, her⟩ := hconf s.1 k2
  rw [d8]
  refine ⟨k1, k2, k3, src, by rw [d1]; simp, fn, _, k, x, e, r, d2, d3, hx, ?_, bp, bq, k4, fun t ht g1 g2 g3 =>
    preIn t (k5 t ht g1 g2 g3)⟩
  have hne : e ≠ r := by
    have hall : ∀ a ∈ cipherList, a.2.1 ≠ a.2.2 := by decide +kernel
    exact hall _ (cipher_mem x _ hx)
  rcases her with he | hr
  · have := hE.ecdsa s hs x e r hx he
    rcases d7 with ⟨_, g⟩ | ⟨g, _⟩
    · exact .inl ⟨g, he⟩
    · omega
  · have := hE.rsa s hs x e r hx hr
    rcases d7 with ⟨g, _⟩ | ⟨_, g⟩
    · omega
    · exact .inr ⟨g, hr⟩

/-- What the configuration enables meets the hypothesis of `c58_permitted` (C57, C60). -/
theorem c58_enabled (l : List Bytes) : ∀ s ∈ suites l ++ defaultSuites, ∃ x e r, cipher x = some (e, r) ∧ (s = e ∨ s = r) := by
  intro s hs
  rcases List.mem_append.mp hs with h | h
  · rw [suites_eq] at h
    obtain ⟨y, _, hsy⟩ := List.mem_flatMap.mp h
    cases hy : cipher y with
    | none => simp [pair, hy] at hsy
    | some p => exact ⟨y, p.1, p.2, hy, by simpa [pair, hy] using hsy⟩
  · have hall : ∀ s ∈ defaultSuites, ∃ x ∈ [b!"CHACHA20_POLY1305_SHA256", b!"AES_256_GCM_SHA384", b!"AES_128_GCM_SHA256"],
        (cipher x).any (fun p => s == p.1 || s == p.2) = true := by decide +kernel
    obtain ⟨x, _, hx⟩ := hall s h
    cases hc : cipher x with
    | none => simp [hc] at hx
    | some p => exact ⟨x, p.1, p.2, hc, by simpa [hc] using hx⟩

/-- **C58 (refusal).** When the handshake is refused, no source before the one that failed (if one did) had a
certificate fit for any of the suites. -/
theorem c58_refused {γ} (H : Hello) (alloc : Nat → Bool) (getcert : Nat → Bytes → Answer γ) (srcs : List (Bytes × Bool)) (certfn dns : Bytes)
    (hsrc : ∀ s ∈ srcs, NoNul s.1) (hname : ∀ n, H.name = some n → NoNul n) (hc : certfn.length = 1024) (hd : dns.length = 256)
    (reqs : List Bytes) (h : choose H alloc getcert srcs certfn dns = .ok (reqs, none)) :
    ∃ before after, srcs = before ++ after ∧
      (after = [] ∨ ∃ src rest fn e, after = src :: rest ∧ FileFor H.name src fn ∧ getcert rest.length fn = .fail e ∧
        (src.2 = false ∨ e ≠ 2 ∨ rest = [])) ∧
      ∀ b1 src b2 fn k c, before = b1 ++ src :: b2 → alloc (b2 ++ after).length = true → rawLength H.name src < 1024 →
        FileFor H.name src fn → getcert (b2 ++ after).length fn = .chain k c → ∀ s ∈ H.suites, ¬ Fits k s := by
  obtain ⟨reqs', r', h1, h2⟩ := c58_choose H alloc getcert srcs certfn dns hsrc hname hc hd
  rw [h] at h1
  cases h1
  clear h hsrc hname hc
  have fileUnique : ∀ src f g, FileFor H.name src f → FileFor H.name src g → f = g := by
    intro src f g hf hg
    cases hf with
    | file => cases hg; rfl
    | dir e _ =>
      cases hg with
      | dir e' _ => rw [e] at e'; cases e'; rfl
  generalize hr : (none : Option (Choice γ)) = r at h2
  induction h2 with
  | none => exact ⟨[], [], rfl, .inl rfl, fun b1 src b2 fn k c e => by simp at e⟩
  | stop ho =>
    rename_i src rest req
    refine ⟨[], src :: rest, rfl, .inr ?_, fun b1 src b2 fn k c e => by simp at e⟩
    cases ho with
    | failed g1 g2 g3 g4 => exact ⟨src, rest, _, _, rfl, g2, g3, by simpa using g4⟩
  | use _ => cases hr
  | next ho _ ih =>
    rename_i src rest req reqs' r' _
    obtain ⟨before, after, i1, i2, i3⟩ := ih hr
    refine ⟨src :: before, after, by simp [i1], i2, ?_⟩
    intro b1 src' b2 fn k c e ha hl hf hg
    cases b1 with
    | cons a b1 =>
      simp only [List.cons_append, List.cons.injEq] at e
      exact i3 b1 src' b2 fn k c e.2 ha hl hf hg
    | nil =>
      simp only [List.nil_append, List.cons.injEq] at e
      obtain ⟨rfl, rfl⟩ := e
      rw [← i1] at ha hg
      rw [ha] at ho
      cases ho with
      | noName g1 g2 =>
        cases hf with
        | file => cases g1
        | dir e hlook => exact absurd ⟨_, e, hlook⟩ g2
      | noRoom g => simp [hl] at g
      | missing _ g2 g3 _ _ =>
        rw [fileUnique _ _ _ hf g2] at hg
        rw [g3] at hg; cases hg
      | unsuited _ g2 g3 g4 =>
        rw [fileUnique _ _ _ hf g2] at hg
        rw [g3] at hg; cases hg
        exact g4

/-- **C58 (hash, partial).** When the client accepts one of the four hash functions with this type of key,
the signature uses the strongest of them. Missing: a client that accepts none, see `c58_no_hash`. -/
theorem c58_hash_partial (k hashes version : Nat) (hv : 0x0303 ≤ version) (hk : k = 1 ∨ k = 2)
    (h : clientHashes k hashes ≠ []) :
    ∃ x, algo k hashes version = 0xFF00 + x ∧ x ∈ [6, 5, 4, 2] ∧ hashes.testBit (if k = 2 then x + 8 else x) = true ∧
      ∀ y ∈ [6, 5, 4, 2], hashes.testBit (if k = 2 then y + 8 else y) = true → y ≤ x := by
  have hsort : (clientHashes k hashes).Pairwise (· > ·) :=
    List.Pairwise.sublist List.filter_sublist (by decide : [6, 5, 4, 2].Pairwise (· > ·))
  cases e : clientHashes k hashes with
  | nil => exact absurd e h
  | cons x l =>
    have hx : x ∈ clientHashes k hashes := by rw [e]; simp
    obtain ⟨h1, h2⟩ := List.mem_filter.mp hx
    refine ⟨x, by rw [algo, if_neg (by omega), e]; rfl, h1, h2, fun y hy hb => ?_⟩
    have hy : y ∈ clientHashes k hashes := List.mem_filter.mpr ⟨hy, hb⟩
    rw [e] at hy hsort
    rcases List.mem_cons.mp hy with rfl | hy
    · exact Nat.le_refl _
    · exact Nat.le_of_lt ((List.pairwise_cons.mp hsort).1 y hy)

/-- A client with ECDSA and RSA suites. -/
def sampleHello : Hello := ⟨[(0xCCA9, 0x2000 + 0x0704), (0xCCA8, 0x1000 + 0x0704), (0xC02B, 0x2000 + 0x0404)], 0x7C7C, some b!"www.example.com", 0x0303⟩

/-- The second source has the certificate, with an RSA key: the second suite, SHA-512. -/
example : choose sampleHello (fun _ => true)
    (fun _ fn => if fn = b!"/certs/www.example.com" then Answer.fail 2 else if fn = b!"/etc/c.pem" then .chain 1 b!"chain" else .fail 13)
    [(b!"/certs/", true), (b!"/etc//c.pem", false)] (List.replicate 1024 0) (List.replicate 256 0) =
    .ok ([b!"/certs/www.example.com", b!"/etc/c.pem"], some ⟨b!"chain", 0xCCA8, 0xFF06⟩) := by decide +kernel

/-- The hypotheses about the engine are met. -/
example : Engine true [0xCCA8, 0xC02B, 0xCCA9] [0xCCA9, 0xCCA8, 0xC02C, 0xC02B] (fun _ => true) sampleHello.suites := by
  refine ⟨by decide, ?_, ?_⟩
  all_goals
    intro s hs x e r hx he
    have h2 := cipher_mem x _ hx
    have hall1 : ∀ s ∈ sampleHello.suites, ∀ a ∈ cipherList, s.1 = a.2.1 → s.2 / 2 ^ 12 = 2 := by decide +kernel
    have hall2 : ∀ s ∈ sampleHello.suites, ∀ a ∈ cipherList, s.1 = a.2.2 → s.2 / 2 ^ 12 = 1 := by decide +kernel
    first | exact hall1 s hs _ h2 he | exact hall2 s hs _ h2 he

/-- **C58 (violation).** A TLS 1.2 client that accepts only SHA-224 in signatures is not refused: the
algorithm identifier is that of no hash function. -/
theorem c58_no_hash : ∃ H : Hello, H.version = 0x0303 ∧ H.hashes ≠ 0 ∧
    choose H (fun _ => true) (fun _ _ => Answer.chain 2 ()) [(b!"c.pem", false)] (List.replicate 1024 0) (List.replicate 256 0) =
      .ok ([b!"c.pem"], some ⟨(), 0xC02B, 0xFF00⟩) :=
  ⟨⟨[(0xC02B, 0x2404)], 0x0808, none, 0x0303⟩, rfl, by decide, by decide +kernel⟩

/-! ### C67 -/

theorem outcome_request {γ} {H : Hello} {getcert : Bytes → Answer γ} {room last : Bool} {src : Bytes × Bool} {req : Option Bytes}
    {next : Next γ} (h : Outcome H getcert room last src req next) (fn : Bytes) (hf : req = some fn) :
    room = true ∧ FileFor H.name src fn := by
  cases h <;> cases hf <;> exact ⟨by assumption, by assumption⟩

theorem decides_requests {γ} {H : Hello} {alloc : Nat → Bool} {getcert : Nat → Bytes → Answer γ} {srcs : List (Bytes × Bool)}
    {reqs : List Bytes} {r : Option (Choice γ)} (h : Decides H alloc getcert srcs reqs r) :
    reqs.length ≤ srcs.length ∧ ∀ fn ∈ reqs, ∃ src ∈ srcs, rawLength H.name src < 1024 ∧ FileFor H.name src fn := by
  have one {room : Bool} {getcert : Bytes → Answer γ} {last : Bool} {src : Bytes × Bool} {req : Option Bytes} {next : Next γ}
      (h : Outcome H getcert (room && decide (rawLength H.name src < 1024)) last src req next) :
      req.toList.length ≤ 1 ∧ ∀ fn ∈ req.toList, rawLength H.name src < 1024 ∧ FileFor H.name src fn := by
    cases req with
    | none => simp
    | some fn =>
      obtain ⟨h1, h2⟩ := outcome_request h fn rfl
      simp only [Bool.and_eq_true, decide_eq_true_eq] at h1
      simpa using ⟨h1.2, h2⟩
  induction h with
  | none => simp
  | stop h =>
    obtain ⟨h1, h2⟩ := one h
    exact ⟨by simp only [List.length_cons]; omega, fun fn hf => ⟨_, by simp, h2 fn hf⟩⟩
  | use h =>
    obtain ⟨h1, h2⟩ := one h
    exact ⟨by simp only [List.length_cons]; omega, fun fn hf => ⟨_, by simp, h2 fn hf⟩⟩
  | next h _ ih =>
    obtain ⟨h1, h2⟩ := one h
    refine ⟨by simp only [List.length_cons, List.length_append]; omega, fun fn hf => ?_⟩
    rcases List.mem_append.mp hf with hf | hf
    · exact ⟨_, by simp, h2 fn hf⟩
    · obtain ⟨src, g1, g2⟩ := ih.2 fn hf
      exact ⟨src, by simp [g1], g2⟩

theorem joinDots_chars (ls : List Bytes) (h : ∀ l ∈ ls, Label l) : ∀ b ∈ joinDots ls, LabelChar b ∨ b = c! '.' := by
  fun_induction joinDots ls with
  | case1 => simp
  | case2 l => exact fun b hb => .inl ((h l (by simp)).chars b hb)
  | case3 l ls _ ih =>
    intro b hb
    simp only [List.mem_append, List.mem_cons] at hb
    rcases hb with hb | rfl | hb
    · exact .inl ((h l (by simp)).chars b hb)
    · exact .inr rfl
    · exact ih (fun l' hl => h l' (List.mem_cons_of_mem _ hl)) b hb

theorem joinDots_head (ls : List Bytes) (h : ∀ l ∈ ls, Label l) (hne : ls ≠ []) : ∃ b t, joinDots ls = b :: t ∧ LabelChar b := by
  cases ls with
  | nil => exact absurd rfl hne
  | cons l ls =>
    have hl := h l (by simp)
    cases l with
    | nil => exact absurd rfl hl.nonempty
    | cons b l =>
      have hb := hl.chars b (by simp)
      cases ls with
      | nil => exact ⟨b, l, rfl, hb⟩
      | cons m ls => exact ⟨b, _, rfl, hb⟩

/-- A name that is looked up is a file name: it has no slash and, except for the root, no leading dot. -/
theorem lookup_chars (n : Bytes) (h : Lookup n) :
    (∀ b ∈ n, LabelChar b ∨ b = c! '.') ∧ (n = b!"." ∨ ∃ b t, n = b :: t ∧ LabelChar b) := by
  obtain ⟨hne, ls, h1, h2, _⟩ := h
  cases h1 with
  | empty => exact absurd rfl hne
  | root => exact ⟨by simp, .inl rfl⟩
  | relative hls =>
    exact ⟨joinDots_chars ls h2, .inr (joinDots_head ls h2 hls)⟩
  | absolute hls =>
    refine ⟨fun b hb => ?_, .inr ?_⟩
    · rcases List.mem_append.mp hb with hb | hb
      · exact joinDots_chars ls h2 b hb
      · exact .inr (by simpa using hb)
    · obtain ⟨b, t, e, hb⟩ := joinDots_head ls h2 hls
      exact ⟨b, t ++ [c! '.'], by rw [e]; rfl, hb⟩

theorem not_slash (b : Byte) (h : LabelChar b ∨ b = c! '.') : b ≠ c! '/' := by
  rintro rfl
  revert h; decide

theorem fp_plain (n : Bytes) (h : ∀ b ∈ n, b ≠ c! '/') : Path.fp false n = n := by
  induction n with
  | nil => rfl
  | cons b n ih =>
    have h1 := h b (by simp)
    rw [Path.fp]
    have h2 : (b == c! '/') = false := by simpa using h1
    simp [h2, ih (fun x hx => h x (by simp [hx]))]

/-- **C67.** Every file asked of the key process is a configured file (sanitised), or lies directly in a
configured directory and is named like the server the client asked for (the root name "." as ":"). At
most one file is asked for each source. -/
theorem c67_requests {γ} (H : Hello) (alloc : Nat → Bool) (getcert : Nat → Bytes → Answer γ) (srcs : List (Bytes × Bool)) (certfn dns : Bytes)
    (hsrc : ∀ s ∈ srcs, NoNul s.1) (hname : ∀ n, H.name = some n → NoNul n) (hc : certfn.length = 1024) (hd : dns.length = 256)
    (reqs : List Bytes) (r : Option (Choice γ)) (h : choose H alloc getcert srcs certfn dns = .ok (reqs, r)) :
    reqs.length ≤ srcs.length ∧
    ∀ fn ∈ reqs, fn.length < 1024 ∧
      ((∃ f, (f, false) ∈ srcs ∧ fn = undot (collapse f)) ∨
       ∃ d n leaf, (d, true) ∈ srcs ∧ H.name = some n ∧ Lookup n ∧ fn = undot (collapse (d ++ [c! '/'])) ++ leaf ∧
        (leaf = n ∨ (n = b!"." ∧ leaf = b!":")) ∧ c! '/' ∉ leaf ∧ leaf.head? ≠ some (c! '.')) := by
  obtain ⟨reqs', r', h1, h2⟩ := c58_choose H alloc getcert srcs certfn dns hsrc hname hc hd
  rw [h] at h1
  cases h1
  obtain ⟨g1, g2⟩ := decides_requests h2
  refine ⟨g1, fun fn hfn => ?_⟩
  obtain ⟨src, hs, hlen, hf⟩ := g2 fn hfn
  cases hf with
  | file =>
    rename_i f
    refine ⟨?_, .inl ⟨f, hs, rfl⟩⟩
    have := Path.c11_length f
    simp only [rawLength] at hlen
    omega
  | dir hn hl =>
    rename_i d n
    have hlen' := Path.c11_length (d ++ c! '/' :: n)
    refine ⟨by simp [rawLength, hn] at hlen hlen' ⊢; omega, .inr ⟨d, n, Path.fp true n, hs, hn, hl, ?_, ?_, ?_, ?_⟩⟩
    · rw [← Path.fp_spec, ← Path.fp_spec]; exact Path.fp_append_slash d false n
    all_goals
      obtain ⟨c1, c2⟩ := lookup_chars n hl
      have hns : ∀ b ∈ n, b ≠ c! '/' := fun b hb => not_slash b (c1 b hb)
      rcases c2 with rfl | ⟨b, t, rfl, hb⟩
    · exact .inr ⟨rfl, rfl⟩
    · refine .inl ?_
      have hb1 : b ≠ c! '/' := hns b (by simp)
      have hb2 : b ≠ c! '.' := by rintro rfl; revert hb; decide
      rw [Path.fp]
      have hb3 : (b == c! '/') = false := by simpa using hb1
      simp [hb1, hb2, hb3, fp_plain t (fun x hx => hns x (by simp [hx]))]
    · decide
    · have hb1 : b ≠ c! '/' := hns b (by simp)
      have hb2 : b ≠ c! '.' := by rintro rfl; revert hb; decide
      rw [Path.fp]
      simp only [hb1, hb2, and_false, if_false]
      rw [show (b == c! '/') = false by simpa using hb1, fp_plain t (fun x hx => hns x (by simp [hx]))]
      exact fun hm => hns _ hm rfl
    · decide
    · exact ((Path.fp_safe true (b :: t)).1 rfl).1

/-- **C67.** The key process opens exactly the file that was asked for: its own sanitising changes nothing. -/
theorem c67_opened {γ} (H : Hello) (alloc : Nat → Bool) (getcert : Nat → Bytes → Answer γ) (srcs : List (Bytes × Bool)) (certfn dns : Bytes)
    (hsrc : ∀ s ∈ srcs, NoNul s.1) (hname : ∀ n, H.name = some n → NoNul n) (hc : certfn.length = 1024) (hd : dns.length = 256)
    (reqs : List Bytes) (r : Option (Choice γ)) (h : choose H alloc getcert srcs certfn dns = .ok (reqs, r)) :
    ∀ fn ∈ reqs, Key.Spec.name (fn ++ [0]) = fn := by
  obtain ⟨reqs', r', h1, h2⟩ := c58_choose H alloc getcert srcs certfn dns hsrc hname hc hd
  rw [h] at h1
  cases h1
  intro fn hfn
  obtain ⟨src, hs, _, hf⟩ := (decides_requests h2).2 fn hfn
  have both : Safe fn ∧ NoNul fn := by
    cases hf with
    | file => exact ⟨Path.c11_safe _, noNul_fix _ (hsrc _ hs)⟩
    | dir hn _ => exact ⟨Path.c11_safe _, noNul_fix _ (NoNul.append (hsrc _ hs) (NoNul.cons (by decide) (hname _ hn)))⟩
  have htw : ∀ l : Bytes, NoNul l → l.takeWhile (· ≠ 0) = l := by
    intro l hl
    induction l with
    | nil => rfl
    | cons b l ih => rw [List.takeWhile_cons_of_pos (by simpa using hl.head), ih hl.tail]
  unfold Key.Spec.name
  rw [List.dropLast_concat, htw fn both.2]
  exact Path.c11_unchanged fn both.1

/-- A name with slashes is not looked up; the root name is looked up as ":". -/
example : (choose { sampleHello with name := some b!"../x" } (fun _ => true) (fun _ _ => Answer.chain 2 ()) [(b!"/certs", true)]
      (List.replicate 1024 0) (List.replicate 256 0) = .ok ([], none)) ∧
    (choose { sampleHello with name := some b!"." } (fun _ => true) (fun _ _ => Answer.chain 2 ()) [(b!"/certs", true)]
      (List.replicate 1024 0) (List.replicate 256 0) = .ok ([b!"/certs/:"], some ⟨(), 0xCCA9, 0xFF06⟩)) := by
  constructor <;> decide +kernel

end Conf
