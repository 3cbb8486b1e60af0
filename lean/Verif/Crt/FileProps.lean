import Verif.Crt.Props
import Verif.Pem.Props
import Verif.Key.NetProps
/-
C78: the certificate chain the network process presents and the private key the key process signs
with are those of one file. This puts together the splitting of the file (C29-C31), its way
through the pipe (C56) and the parsing of the two parts (C75, C76).
-/
namespace Crt
open Pem (Item text usable)

/-! ### Specification -/

/-- The objects of a PEM file: label and contents of each block; `b64` decodes a body. -/
def blocks (b64 : List Bytes → Bytes) (items : List Item) : List (Bytes × Bytes) :=
  items.filterMap (fun
    | .line _ => none
    | .block label body => some (label, b64 body))

/-- The decoder `D` reads a well-formed PEM text: it reports exactly the objects of the text, completely. -/
def ReadsPem (D : Bytes → List Push) (b64 : List Bytes → Bytes) (items : List Item) : Prop :=
  Stream none (D (text (items.flatMap Item.lines))) (blocks b64 items) .whole

/-- The text of the certificate blocks of a file, and that of all the rest. -/
def certPart (items : List Item) : Bytes := text ((items.filter Item.isCert).flatMap Item.lines)
def otherPart (items : List Item) : Bytes := text ((items.filter (fun it => !it.isCert)).flatMap Item.lines)

/-! ### Model -/

/-- tls_keyjail.c:63-101: what is signed with the text of the private part; `br` is BearSSL's signing with a key of type `t`. -/
def sign {κ : Type} (D : Bytes → List Push) (K : Skey κ) (br : Nat → κ → Byte → Bytes → Out Bytes) (sec : Bytes) (hash : Byte) (digest : Bytes) :
    Out Bytes :=
  match tls_seccrt_parse K (D sec) with                                 -- :76
  | none => .ok []                                                      -- :79
  | some (t, k) => if t = EC ∨ t = RSA then br t k hash digest else .ok []   -- :85-95

/-- tls_pipe.c:48: the parsing of the certificates as the network process does it. (That the parser's undefined behaviour
does not occur is part of `c78_file`.) -/
def parse (D : Bytes → List Push) (x509 : Bytes → X509) (ans : List Bool) (pub _fn : Bytes) : Option Parsed :=
  match tls_pubcrt_parse x509 (D pub) ans with
  | .ok r => r
  | .ub => none

/-! ### Proofs -/

theorem isCert_item (label : Bytes) (body : List Bytes) : (Item.block label body).isCert = true ↔ isCert label := by
  simp [Item.isCert, isCert]

theorem certs_blocks (b64 : List Bytes → Bytes) (items : List Item) : certs (blocks b64 (items.filter Item.isCert)) = certs (blocks b64 items) := by
  induction items with
  | nil => rfl
  | cons it items ih =>
    cases it with
    | line l => simpa [List.filter_cons, Item.isCert, blocks] using ih
    | block label body =>
      by_cases h : isCert label
      · have := (isCert_item label body).mpr h
        simp only [List.filter_cons, this, if_true, blocks, List.filterMap_cons, certs, h, decide_true, List.map_cons] at ih ⊢
        rw [ih]
      · have : (Item.block label body).isCert = false := by simpa using mt (isCert_item label body).mp h
        simp only [List.filter_cons, this, blocks, List.filterMap_cons, certs, h, decide_false] at ih ⊢
        simpa using ih

theorem not_both (n : Bytes) (h : isKey n) : ¬ isCert n := by
  rintro (rfl | rfl) <;> revert h <;> decide

theorem keys_blocks (b64 : List Bytes → Bytes) (items : List Item) :
    keys (blocks b64 (items.filter (fun it => !it.isCert))) = keys (blocks b64 items) := by
  induction items with
  | nil => rfl
  | cons it items ih =>
    cases it with
    | line l => simpa [List.filter_cons, Item.isCert, blocks] using ih
    | block label body =>
      by_cases h : isCert label
      · have h1 := (isCert_item label body).mpr h
        have h2 : ¬ isKey label := fun g => not_both label g h
        simp only [List.filter_cons, h1, blocks, List.filterMap_cons, keys, h2, decide_false] at ih ⊢
        simpa using ih
      · have : (Item.block label body).isCert = false := by simpa using mt (isCert_item label body).mp h
        by_cases hk : isKey label
        · simp only [List.filter_cons, this, Bool.not_false, if_true, blocks, List.filterMap_cons, keys, hk, decide_true, List.map_cons] at ih ⊢
          rw [ih]
        · simp only [List.filter_cons, this, Bool.not_false, if_true, blocks, List.filterMap_cons, keys, hk, decide_false] at ih ⊢
          simpa using ih

theorem selected_unique {ls P Q : List Bytes} {sel : Nat → Prop} (h : Pem.Selected ls P sel) (g : Pem.Selected ls Q sel) : P = Q := by
  obtain ⟨k1, a1, a2, rfl⟩ := h
  obtain ⟨k2, b1, b2, rfl⟩ := g
  have : k1 = k2 := by
    apply List.ext_getElem (by omega)
    intro i h1 h2
    have x := a2 i _ (List.getElem?_eq_getElem h1)
    have y := b2 i _ (List.getElem?_eq_getElem h2)
    cases e1 : k1[i] <;> cases e2 : k2[i] <;> simp_all
  rw [this]

/-- What the private key of a file is, and how the key process signs with it. -/
theorem sign_file {κ : Type} (D : Bytes → List Push) (b64 : List Bytes → Bytes) (K : Skey κ) (hK : Sound K)
    (br : Nat → κ → Byte → Bytes → Out Bytes) (items : List Item) (h : ReadsPem D b64 (items.filter (fun it => !it.isCert)))
    (hash : Byte) (digest : Bytes) :
    (∀ k t, keys (blocks b64 items) = [k] → K.err k = 0 → K.type k = some t →
      sign D K br (otherPart items) hash digest = br t (K.key k) hash digest) ∧
    ((¬ ∃ k, keys (blocks b64 items) = [k] ∧ K.err k = 0) →
      sign D K br (otherPart items) hash digest = .ok []) := by
  have key := c76_key K hK _ _ _ h
  change ∀ t k, tls_seccrt_parse K (D (otherPart items)) = _ ↔ _ at key
  rw [keys_blocks] at key
  unfold sign
  constructor
  · intro k t h1 h2 h3
    rw [(key t (K.key k)).mpr ⟨rfl, k, h1, h2, h3, rfl⟩]
    have : t = EC ∨ t = RSA := by
      rcases hK k h2 with e | e <;> rw [e] at h3 <;> simp at h3 <;> simp [h3]
    simp only [this, if_true]
  · intro hn
    cases e : tls_seccrt_parse K (D (otherPart items)) with
    | none => rfl
    | some q =>
      obtain ⟨-, k, h1, h2, -⟩ := (key q.1 q.2).mp e
      exact absurd ⟨k, h1, h2⟩ hn

open Key in
/-- C78 (the files): a client's name leads to a file made of PEM items. The network process then gets the file's certificates, all of
them and in the file's order, or none at all, and gets them when they are usable and memory suffices. The key process goes on holding
a text with which it signs by the file's private key if the file has exactly one and it is valid, and otherwise not at all. -/
theorem c78_file {κ : Type} (D : Bytes → List Push) (b64 : List Bytes → Bytes) (x509 : Bytes → X509) (hX : Small x509) (ans : List Bool)
    (K : Skey κ) (hK : Sound K) (br : Nat → κ → Byte → Bytes → Out Bytes)
    (p : P) (hp : Lawful p) (hsign : p.doSign = sign D K br) (ld : LoadEnv) (hld : ld ∈ p.loads) (loads : List LoadEnv)
    (certfn : Bytes) (hc : certfn.length = 1024) (pem : Pems) (fn : Bytes) (hfn : fn.length < 1024) (h0 : 0 ∉ fn)
    (allocOk : Nat → Bool) (ha : ∀ n, allocOk n = true) (nc : Option Bytes × Pem.Ctx)
    (hload : Pem.load p.cipher pem.nonce ld.key (ld.env (Path.Spec.undot (Path.Spec.collapse fn))) = .ok (some nc))
    (d : Bytes) (hd : content (ld.env (Path.Spec.undot (Path.Spec.collapse fn))) = some d)
    (items : List Item) (hok : ∀ it ∈ items, it.Ok) (hu : usable d = items.flatMap Item.lines)
    (hpub : ReadsPem D b64 (items.filter Item.isCert)) (hsec : ReadsPem D b64 (items.filter (fun it => !it.isCert)))
    (hb : total (D (certPart items)) < 2 ^ 60) :
    ∃ r,
      (∀ o i n, Net.At o (frame (certPart items) ++ i) n →
        Net.Go (Net.getcert allocOk (parse D x509 ans) fn) n fun c n => c = r ∧ Net.At (o ++ frame (fn ++ [0])) i n) ∧
      tls_pubcrt_parse x509 (D (certPart items)) ans = .ok r ∧
      (∀ c, r = some c → c.crt = certs (blocks b64 items) ∧ c.crt ≠ [] ∧ c.crt.length ≤ 16 ∧
        Each (fun d a => Usable (x509 d) a) c.crt c.ta ∧ FirstType x509 c.crt c.keyType) ∧
      (certs (blocks b64 items) ≠ [] → (certs (blocks b64 items)).length ≤ 16 → (∀ d ∈ certs (blocks b64 items), ∃ a, Usable (x509 d) a) →
        Plenty (budget x509 (D (certPart items)) (blocks b64 (items.filter Item.isCert))) ans → r ≠ none) ∧
      Continues p.cipher ld loads certfn pem (frame (fn ++ [0])) (frame (certPart items))
        [.got (fn ++ [0]), .load (Path.Spec.undot (Path.Spec.collapse fn)) (some d), .sent (certPart items)] (some (otherPart items)) ∧
      ∀ hash digest,
        (∀ k t, keys (blocks b64 items) = [k] → K.err k = 0 → K.type k = some t → p.doSign (otherPart items) hash digest = br t (K.key k) hash digest) ∧
        ((¬ ∃ k, keys (blocks b64 items) = [k] ∧ K.err k = 0) → p.doSign (otherPart items) hash digest = .ok []) := by
  obtain ⟨d', P, S, e1, e2, e3, e4, e5⟩ := c56_getcert p hp ld hld loads certfn hc pem fn hfn h0 allocOk (parse D x509 ans) nc hload ha
  rw [hd, Option.some.injEq] at e1
  subst e1
  have hP := selected_unique e2 (Pem.classify_selected _).1
  have hS := selected_unique e3 (Pem.classify_selected _).2
  rw [hu, (Pem.classify_items items hok).1] at hP
  rw [hu, (Pem.classify_items items hok).2] at hS
  subst hP hS
  obtain ⟨r, g1, g2, g3⟩ := c75_chain x509 hX _ _ _ hpub hb ans
  rw [certs_blocks] at g2 g3
  change tls_pubcrt_parse x509 (D (certPart items)) ans = .ok r at g1
  change ∀ o i n, Net.At o (frame (certPart items) ++ i) n → Net.Go _ n fun r n => r = parse D x509 ans (certPart items) fn ∧ _ at e4
  have hr : parse D x509 ans (certPart items) fn = r := by unfold parse; rw [g1]
  rw [hr] at e4
  refine ⟨r, e4, g1, fun c h => (g2 c h).2, g3 rfl, e5, fun hash digest => ?_⟩
  rw [hsign]
  exact sign_file D b64 K hK br items hsec hash digest

open Key in
/-- C78 (the signature): whatever the network process has signed while the key process holds that text is signed with the file's key. -/
theorem c78_signature {κ : Type} (D : Bytes → List Push) (b64 : List Bytes → Bytes) (K : Skey κ) (hK : Sound K)
    (br : Nat → κ → Byte → Bytes → Out Bytes) (p : P) (hp : Lawful p) (hsign : p.doSign = sign D K br)
    (items : List Item) (hsec : ReadsPem D b64 (items.filter (fun it => !it.isCert)))
    (pem : Pems) (hk : Holds p.cipher pem (some (otherPart items)))
    (k : Bytes) (t : Nat) (h1 : keys (blocks b64 items) = [k]) (h2 : K.err k = 0) (h3 : K.type k = some t)
    (algo max : Nat) (x sig : Bytes) (hx : x.length ≤ max) (hmax : max ≤ 2048) (hs : br t (K.key k) (UInt8.ofNat algo) x = .ok sig)
    (hsig : sig.length ≤ max) :
    ∃ act, Exchange (Net.dosign algo x max) (some sig) (signOnce p pem) () act := by
  refine ⟨_, c56_sign p hp pem _ hk algo max x sig hx hmax ?_ hsig⟩
  rw [hsign]
  simp only [Option.getD_some]
  rw [(sign_file D b64 K hK br items hsec _ _).1 k t h1 h2 h3, hs]

/-! ### A case that meets the hypotheses: Pem.sampleFile, a certificate and a key -/

def twoItems : List Item := [.block b!"CERTIFICATE" [b!"AAAA"], .block b!"PRIVATE KEY" [b!"BBBB"]]
def toy64 : List Bytes → Bytes := fun ls => if ls = [b!"AAAA"] then [2, 7, 8, 9] else [1, 2]
def toyD : Bytes → List Push := fun t =>
  if t = certPart twoItems then [⟨[], .begin b!"CERTIFICATE"⟩, ⟨[[2, 7], [8, 9]], .fin b!"CERTIFICATE"⟩]
  else [⟨[], .begin b!"PRIVATE KEY"⟩, ⟨[[1, 2]], .none⟩, ⟨[], .fin b!"PRIVATE KEY"⟩]
def toyBr (_ : Nat) (k : Bytes) (_ : Byte) (x : Bytes) : Out Bytes := if x.length ≤ 64 ∧ k.length ≤ 64 then .ok (k ++ x) else .ub
def toyP : Key.P := { Key.toy [] with doSign := sign toyD sampleK toyBr }

theorem toyP_lawful : Key.Lawful toyP := { Key.toy_lawful [] with
  sign := by
    intro sec h d sig hs
    simp only [toyP, sign] at hs
    split at hs
    · cases hs; simp
    · split at hs
      · unfold toyBr at hs
        split at hs
        · cases hs; rw [List.length_append]; omega
        · cases hs
      · cases hs; simp }

example : ReadsPem toyD toy64 (twoItems.filter Item.isCert) ∧ ReadsPem toyD toy64 (twoItems.filter (fun it => !it.isCert)) := by
  unfold ReadsPem
  constructor
  · have : toyD (text ((twoItems.filter Item.isCert).flatMap Item.lines)) =
      [⟨[], .begin b!"CERTIFICATE"⟩, ⟨[[2, 7], [8, 9]], .fin b!"CERTIFICATE"⟩] := by decide +kernel
    rw [this]
    exact .begin (.fin .done)
  · have : toyD (text ((twoItems.filter (fun it => !it.isCert)).flatMap Item.lines)) =
      [⟨[], .begin b!"PRIVATE KEY"⟩, ⟨[[1, 2]], .none⟩, ⟨[], .fin b!"PRIVATE KEY"⟩] := by decide +kernel
    rw [this]
    exact .begin (.data (.fin .done))

example : Key.content (Key.toyEnv b!"cert.pem") = some Pem.sampleFile ∧ usable Pem.sampleFile = twoItems.flatMap Item.lines ∧
    certs (blocks toy64 twoItems) = [[2, 7, 8, 9]] ∧ keys (blocks toy64 twoItems) = [[1, 2]] ∧ sampleK.err [1, 2] = 0 ∧ sampleK.type [1, 2] = some RSA ∧
    total (toyD (certPart twoItems)) = 4 ∧ Plenty (budget sample (toyD (certPart twoItems)) (blocks toy64 (twoItems.filter Item.isCert))) (List.replicate 20 true) ∧
    tls_pubcrt_parse sample (toyD (certPart twoItems)) (List.replicate 20 true) = .ok (some ⟨some .ec, [[2, 7, 8, 9]], [⟨[7, 8], true, .ec 23 [9]⟩]⟩) ∧
    sign toyD sampleK toyBr (otherPart twoItems) 4 [5, 5] = .ok [1, 2, 5, 5] := by
  unfold Plenty
  decide +kernel

end Crt
