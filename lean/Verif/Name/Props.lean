import Verif.Name.Lemmas
/-
Property theorems: C03 (host-name validation and encoding), C04 (decoding).
-/
namespace Name
open Spec

/-- **C03 (acceptance).** For every text, every initial content of the 256-byte
output buffer and any bytes after the text's NUL: the parser succeeds with
output `out` exactly when the text is a form of some sequence of valid labels
whose wire format is at most 255 bytes, and then `out` is that wire format
padded with zeros. -/
theorem c03_parsename_accepts (buf s rest out : Bytes) (hs : NoNul s) (hbuf : buf.length = 256) :
    parsename buf (some (cstr s rest)) = .ok (1, out) ↔
      ∃ ls, NameOf s ls ∧ (∀ l ∈ ls, Label l) ∧ (wire ls).length ≤ 255 ∧
        out = wire ls ++ List.replicate (256 - (wire ls).length) 0 := by
  classical
  obtain ⟨o, h⟩ := parsename_ok buf s rest hs hbuf
  rw [h]
  constructor
  · intro h'
    split at h'
    · rename_i hc
      simp only [Out.ok.injEq, Prod.mk.injEq, true_and] at h'
      exact ⟨pieces s, hc.1, hc.2.1, hc.2.2, h'.symm⟩
    · simp at h'
  · rintro ⟨ls, h1, h2, h3, rfl⟩
    have := nameOf_unique s ls h1 h2
    subst this
    rw [if_pos ⟨h1, h2, h3⟩]

/-- **C03 (rejection).** Every other text is rejected: return value 0, without
any access outside the text and the buffer. -/
theorem c03_parsename_rejects (buf s rest : Bytes) (hs : NoNul s) (hbuf : buf.length = 256)
    (h : ¬ ∃ ls, NameOf s ls ∧ (∀ l ∈ ls, Label l) ∧ (wire ls).length ≤ 255) :
    ∃ out, parsename buf (some (cstr s rest)) = .ok (0, out) := by
  classical
  obtain ⟨o, h'⟩ := parsename_ok buf s rest hs hbuf
  refine ⟨o, ?_⟩
  rw [h', if_neg (fun hc => h ⟨_, hc⟩)]

/-- No string, no name: NULL is refused and the output is left alone. -/
theorem c03_null (buf : Bytes) : parsename buf none = .ok (0, buf) := rfl

/-- **C04 (decoding).** Whenever a name is accepted, decoding the buffer as DNS
wire format gives back the labels of the text. -/
theorem c04_unwire_parsename (buf s rest out : Bytes) (hs : NoNul s) (hbuf : buf.length = 256)
    (h : parsename buf (some (cstr s rest)) = .ok (1, out)) :
    ∃ ls, NameOf s ls ∧ (∀ l ∈ ls, Label l) ∧ unwire 256 out = some ls := by
  obtain ⟨ls, h1, h2, h3, rfl⟩ := (c03_parsename_accepts buf s rest out hs hbuf).mp h
  refine ⟨ls, h1, h2, unwire_wire ls h2 _ 256 ?_⟩
  have : ls.length ≤ (ls.flatMap wireLabel).length := by
    clear h1 h2 h3 h
    induction ls with
    | nil => simp
    | cons l ls ih =>
      rw [List.flatMap_cons, List.length_append]
      have : (wireLabel l).length = l.length + 1 := by simp [wireLabel]
      simp only [List.length_cons]; omega
  have h4 : (wire ls).length = (ls.flatMap wireLabel).length + 1 := by simp only [wire, List.length_append, List.length_singleton]
  omega

/-- **C04 (injectivity).** Two accepted texts have the same wire form only if
they are forms of the same sequence of labels. -/
theorem c04_wire_injective (buf buf' s s' rest rest' out : Bytes) (hs : NoNul s) (hs' : NoNul s')
    (hbuf : buf.length = 256) (hbuf' : buf'.length = 256)
    (h : parsename buf (some (cstr s rest)) = .ok (1, out))
    (h' : parsename buf' (some (cstr s' rest')) = .ok (1, out)) :
    ∃ ls, NameOf s ls ∧ NameOf s' ls := by
  obtain ⟨ls, h1, -, h3⟩ := c04_unwire_parsename buf s rest out hs hbuf h
  obtain ⟨ls', h1', -, h3'⟩ := c04_unwire_parsename buf' s' rest' out hs' hbuf' h'
  rw [h3] at h3'
  cases h3'
  exact ⟨ls, h1, h1'⟩

/-- A valid name has exactly one label sequence. -/
theorem c04_nameOf_functional (s : Bytes) (ls ls' : List Bytes) (h : NameOf s ls) (h' : NameOf s ls')
    (hl : ∀ l ∈ ls, Label l) (hl' : ∀ l ∈ ls', Label l) : ls = ls' := by
  rw [nameOf_unique s ls h hl, nameOf_unique s ls' h' hl']

-- Non-vacuity: a concrete accepted name.
example : NameOf b!"www.example.com." [b!"www", b!"example", b!"com"] :=
  .absolute (ls := [b!"www", b!"example", b!"com"]) (by simp)
example : ∀ l ∈ [b!"www", b!"example", b!"com"], Label l := by
  intro l hl
  simp only [List.mem_cons, List.not_mem_nil, or_false] at hl
  rcases hl with rfl | rfl | rfl <;>
    exact ⟨by decide, by decide, by decide, by decide, by decide⟩
example : wire [b!"www", b!"a"] = [3, 119, 119, 119, 1, 97, 0] := by decide
example : ¬ Label b!"-a" := fun h => h.first rfl

end Name
