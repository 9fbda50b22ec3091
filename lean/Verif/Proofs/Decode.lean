import Verif.Proofs.Encode
/-! The decoder reads back the layout of the ABI specification. -/
namespace Ethabi
open Spec (Part headSize layout dynamic dynamicAny enc encAll encZip hasType allHaveType haveTypes
  codable codableAll countsFit countsFitAll)

mutual
theorem type_isDynamic_eq : ∀ t : ParamType, t.isDynamic = dynamic t
  | .address => rfl
  | .bytes => rfl
  | .int _ => rfl
  | .uint _ => rfl
  | .bool => rfl
  | .string => rfl
  | .array _ => rfl
  | .fixedBytes _ => rfl
  | .fixedArray t _ => by simp [ParamType.isDynamic, dynamic, type_isDynamic_eq t]
  | .tuple ts => by simp [ParamType.isDynamic, dynamic, type_anyDynamic_eq ts]
theorem type_anyDynamic_eq : ∀ ts : List ParamType, ParamType.anyDynamic ts = dynamicAny ts
  | [] => rfl
  | t :: ts => by simp [ParamType.anyDynamic, dynamicAny, type_isDynamic_eq t, type_anyDynamic_eq ts]
end

/-- `b` is found in `data` at `off` -/
def At (data : Bytes) (off : Nat) (b : Bytes) : Prop := b <+: data.drop off

theorem At.nil (data : Bytes) (off : Nat) : At data off [] := List.nil_prefix

theorem At.append {data : Bytes} {off : Nat} {a b : Bytes} :
    At data off (a ++ b) ↔ At data off a ∧ At data (off + a.length) b := by
  unfold At
  constructor
  · rintro ⟨c, hc⟩
    refine ⟨⟨b ++ c, by rw [← List.append_assoc]; exact hc⟩, c, ?_⟩
    rw [← List.drop_drop, ← hc]
    simp
  · rintro ⟨⟨c, hc⟩, d, hd⟩
    rw [← List.drop_drop, ← hc] at hd
    simp at hd
    exact ⟨d, by rw [← hc, ← hd, List.append_assoc]⟩

theorem At.drop {data : Bytes} {k off : Nat} {b : Bytes} : At (data.drop k) off b ↔ At data (k + off) b := by
  unfold At; rw [List.drop_drop]

theorem At.le {data : Bytes} {off : Nat} {b : Bytes} (h : At data off b) (hb : b ≠ []) :
    off + b.length ≤ data.length := by
  have := h.length_le
  have hb : 0 < b.length := List.length_pos_iff.2 hb
  rw [List.length_drop] at this
  omega

theorem At.le' {data : Bytes} {off : Nat} {b : Bytes} (h : At data off b) (hb : off ≤ data.length) :
    off + b.length ≤ data.length := by
  have := h.length_le
  rw [List.length_drop] at this
  omega

theorem At.take {data : Bytes} {off : Nat} {b : Bytes} (h : At data off b) :
    (data.drop off).take b.length = b := by
  obtain ⟨c, hc⟩ := h
  rw [← hc]; simp

theorem takeBytes_at {prof : Profile} {data b : Bytes} {off : Nat} (h : At data off b)
    (hl : off + b.length ≤ data.length) (hd : data.length < 2 ^ 64) :
    takeBytes prof data off b.length = .ok b := by
  rw [takeBytes, usizeAdd_ok (by omega), Res.ok_bind, if_neg (by omega), slice,
    if_pos (by omega), Nat.add_sub_cancel_left, h.take]

theorem peek32_at {prof : Profile} {data : Bytes} {off : Nat} (w : Word) (h : At data off w.1)
    (hd : data.length < 2 ^ 64) : peek32 prof data off = .ok w := by
  have hl := h.le (by intro e; have := w.2; rw [e] at this; simp at this)
  have hw := w.2
  have ht := h.take
  rw [hw] at ht
  rw [peek32, peek, usizeAdd_ok (by omega), Res.ok_bind, if_neg (by omega), slice,
    if_pos (by omega), Nat.add_sub_cancel_left, ht, Res.ok_bind, copyWord]
  have h2 : w.1.take 32 = w.1 := List.take_of_length_le (by omega)
  rw [dif_pos (by rw [h2, hw])]
  congr 1
  exact Subtype.ext h2

/-- the word holding `n` -/
def wordOf (n : Nat) : Word := ⟨Spec.word n, length_word n⟩

theorem peek32_word {prof : Profile} {data : Bytes} {off n : Nat} (h : At data off (Spec.word n))
    (hd : data.length < 2 ^ 64) : peek32 prof data off = .ok (wordOf n) :=
  peek32_at (wordOf n) h hd

theorem asUsize_word {n : Nat} (h : n < 2 ^ 32) : asUsize (wordOf n) = .ok n := by
  have hw : (wordOf n) = padU32 n := Subtype.ext (padU32_val n h).symm
  rw [hw, asUsize]
  have h1 : ((padU32 n).1.take 28).all (· == 0) = true := by
    have : (padU32 n).1.take 28 = List.replicate 28 0 := by simp [padU32]
    rw [this]; decide
  rw [if_pos h1]
  congr 1
  have h2 : (padU32 n).1 = List.replicate 28 0 ++ [UInt8.ofNat (n / 256 / 256 / 256), UInt8.ofNat (n / 256 / 256),
      UInt8.ofNat (n / 256), UInt8.ofNat n] := rfl
  rw [wordLow, h2]
  simp
  omega

theorem asBool_word (b : Bool) : asBool (wordOf (if b then 1 else 0)) = .ok b := by
  cases b <;> decide +kernel

theorem off_add {data : Bytes} {off n : Nat} {prof : Profile} (h : At data off (Spec.word n))
    (hd : data.length < 2 ^ 64) : usizeAdd prof off 32 = .ok (off + 32) := by
  have := h.le (by intro e; have := length_word n; rw [e] at this; simp at this)
  rw [length_word] at this
  exact usizeAdd_ok (by omega)

/-- a component is present: static in place at `off`, dynamic through an offset word -/
def Located (data : Bytes) (off : Nat) : Part → Prop
  | (false, b) => At data off b
  | (true, b) => ∃ o, o < 2 ^ 32 ∧ o ≤ data.length ∧ At data off (Spec.word o) ∧ At data o b

def width : Part → Nat
  | (false, b) => b.length
  | (true, _) => 32

def LocatedAll (data : Bytes) : Nat → List Part → Prop
  | _, [] => True
  | off, p :: ps => Located data off p ∧ LocatedAll data (off + width p) ps

theorem locatedAll_of_layout {data : Bytes} {off tt : Nat} {ps : List Part}
    (h1 : At data off (Spec.heads ps tt)) (h2 : At data tt (Spec.tails ps)) (h3 : tt ≤ data.length)
    (h4 : tt + (Spec.tails ps).length < 2 ^ 32) : LocatedAll data off ps := by
  induction ps generalizing off tt with
  | nil => trivial
  | cons p ps ih =>
    obtain ⟨d, b⟩ := p
    cases d
    · simp only [Spec.heads, Spec.tails] at *
      rw [At.append] at h1
      exact ⟨h1.1, ih h1.2 h2 h3 h4⟩
    · simp only [Spec.heads, Spec.tails, List.length_append] at *
      rw [At.append, length_word] at h1
      rw [At.append] at h2
      exact ⟨⟨tt, by omega, h3, h1.1, h2.1⟩, ih h1.2 h2.2 (h2.1.le' h3) (by omega)⟩

theorem locatedAll_body {data : Bytes} {base : Nat} {ps : List Part}
    (h : At data base (layout ps)) (hb : base ≤ data.length) (hl : (layout ps).length < 2 ^ 32) :
    LocatedAll (data.drop base) 0 ps := by
  have h' : At (data.drop base) 0 (layout ps) := by rw [At.drop]; exact h
  have hle := h'.le' (by omega)
  have hl' := length_layout ps
  rw [layout, At.append, length_heads, Nat.zero_add] at h'
  exact locatedAll_of_layout h'.1 h'.2 (by omega) (by omega)

theorem locatedAll_static {data : Bytes} {off : Nat} {ps : List Part} (hs : allStatic ps)
    (h : At data off (layout ps)) : LocatedAll data off ps := by
  rw [static_layout hs] at h
  apply locatedAll_of_layout (tt := 0)
  · rw [(static_heads hs _).1]; exact h
  · rw [(static_heads hs 0).2]; exact At.nil _ _
  · omega
  · rw [(static_heads hs 0).2]; decide

/-- what the decoder must do on a located component -/
def DecodesTo (prof : Profile) (t : ParamType) (tok : Token) : Prop :=
  ∀ (data : Bytes) (off : Nat), data.length < 2 ^ 64 → Located data off (dynamic t, enc tok t) →
    (enc tok t).length < 2 ^ 32 →
    decodeParam prof t data off = .ok (tok, off + width (dynamic t, enc tok t))

theorem decodeLoop_located {prof : Profile} {t : ParamType} {data : Bytes} (hd : data.length < 2 ^ 64)
    (ih : ∀ tok, hasType tok t = true → countsFit tok = true → DecodesTo prof t tok) :
    ∀ (toks : List Token) (off : Nat), allHaveType toks t = true → countsFitAll toks = true →
      LocatedAll data off (encAll toks t) → (layout (encAll toks t)).length < 2 ^ 32 →
      decodeLoop (fun o => decodeParam prof t data o) toks.length off
        = .ok (toks, off + headSize (encAll toks t)) := by
  intro toks
  induction toks with
  | nil => intro off _ _ _ _; simp [decodeLoop, encAll, headSize]
  | cons tok toks ih2 =>
    intro off ht hf hl hb
    simp only [allHaveType, Bool.and_eq_true] at ht
    simp only [countsFitAll, Bool.and_eq_true] at hf
    simp only [encAll] at hb hl
    have h1 := part_length_le (ps := (dynamic t, enc tok t) :: encAll toks t) (p := (dynamic t, enc tok t)) (by simp)
    have h2 := layout_cons_length_le (dynamic t, enc tok t) (encAll toks t)
    simp only [List.length_cons, decodeLoop]
    rw [ih tok ht.1 hf.1 data off hd hl.1 (by simp only at h1; omega), Res.ok_bind]
    simp only
    rw [ih2 _ ht.2 hf.2 hl.2 (by omega), Res.ok_bind]
    simp only [encAll]
    congr 2
    cases dynamic t <;> simp [headSize, width] <;> omega

mutual
/-- `bytesN` has `1 ≤ N ≤ 32` everywhere; weaker than `codable` -/
def bytesOk : ParamType → Bool
  | .fixedBytes n => decide (1 ≤ n ∧ n ≤ 32)
  | .array t => bytesOk t
  | .fixedArray t _ => bytesOk t
  | .tuple ts => bytesOkAll ts
  | _ => true
def bytesOkAll : List ParamType → Bool
  | [] => true
  | t :: ts => bytesOk t && bytesOkAll ts
end

mutual
theorem bytesOk_of_codable : ∀ t, codable t = true → bytesOk t = true
  | .address, _ => rfl
  | .bytes, _ => rfl
  | .int _, _ => rfl
  | .uint _, _ => rfl
  | .bool, _ => rfl
  | .string, _ => rfl
  | .array t, h => by simp only [codable] at h; simp only [bytesOk]; exact bytesOk_of_codable t h
  | .fixedBytes _, h => h
  | .fixedArray t _, h => by
      simp only [codable, Bool.and_eq_true] at h; simp only [bytesOk]; exact bytesOk_of_codable t h.1
  | .tuple ts, h => by simp only [codable] at h; simp only [bytesOk]; exact bytesOkAll_of_codable ts h
theorem bytesOkAll_of_codable : ∀ ts, codableAll ts = true → bytesOkAll ts = true
  | [], _ => rfl
  | t :: ts, h => by
      simp only [codableAll, Bool.and_eq_true] at h
      simp only [bytesOkAll, Bool.and_eq_true]
      exact ⟨bytesOk_of_codable t h.1, bytesOkAll_of_codable ts h.2⟩
end

theorem decode_bytes_like {prof : Profile} {data : Bytes} {off : Nat} {b : Bytes} (hd : data.length < 2 ^ 64)
    (hl : Located data off (true, Spec.word b.length ++ Spec.padRight b))
    (hb : (Spec.word b.length ++ Spec.padRight b).length < 2 ^ 32) :
    ∃ o, peek32 prof data off = .ok (wordOf o) ∧ asUsize (wordOf o) = .ok o ∧
      peek32 prof data o = .ok (wordOf b.length) ∧ asUsize (wordOf b.length) = .ok b.length ∧
      usizeAdd prof o 32 = .ok (o + 32) ∧ takeBytes prof data (o + 32) b.length = .ok b ∧
      usizeAdd prof off 32 = .ok (off + 32) := by
  obtain ⟨o, h1, h2, h3, h4⟩ := hl
  rw [At.append, length_word] at h4
  have hp := length_padRight b
  simp only [List.length_append, length_word] at hb
  have h5 := h4.1.le (by intro e; have := length_word b.length; rw [e] at this; simp at this)
  rw [length_word] at h5
  have h6 : At data (o + 32) b := by
    have := h4.2; rw [Spec.padRight, At.append] at this; exact this.1
  have h7 := h6.le' (by omega)
  exact ⟨o, peek32_word h3 hd, asUsize_word h1, peek32_word h4.1 hd, asUsize_word (by omega),
    usizeAdd_ok (by omega), takeBytes_at h6 (by omega) hd, off_add h3 hd⟩

mutual
theorem decodesTo (prof : Profile) : ∀ (t : ParamType), bytesOk t = true → ∀ tok, hasType tok t = true →
    countsFit tok = true → DecodesTo prof t tok
  | .address, _, tok, ht, hf, data, off, hd, hl, hb => by
      cases tok <;> simp only [hasType, Bool.false_eq_true] at ht
      rename_i a
      have hl : At data off (padAddress a).1 := hl
      have hle := hl.le (by intro e; have := (padAddress a).2; rw [e] at this; simp at this)
      rw [(padAddress a).2] at hle
      rw [decodeParam, peek32_at _ hl hd, Res.ok_bind, usizeAdd_ok (by omega), Res.ok_bind]
      have e : wordAddress (padAddress a) = a := Subtype.ext (by simp [wordAddress, padAddress])
      rw [e]
      simp [width, dynamic, enc, a.2]
  | .uint n, _, tok, ht, hf, data, off, hd, hl, hb => by
      cases tok <;> simp only [hasType, Bool.false_eq_true] at ht
      rename_i v
      have hl : At data off (Spec.word v.toNat) := hl
      rw [decodeParam, peek32_word hl hd, Res.ok_bind, off_add hl hd, Res.ok_bind, ofWord_word v _ rfl]
      simp [width, dynamic, enc]
  | .int n, _, tok, ht, hf, data, off, hd, hl, hb => by
      cases tok <;> simp only [hasType, Bool.false_eq_true] at ht
      rename_i v
      have hl : At data off (Spec.word v.toNat) := hl
      rw [decodeParam, peek32_word hl hd, Res.ok_bind, off_add hl hd, Res.ok_bind, ofWord_word v _ rfl]
      simp [width, dynamic, enc]
  | .bool, _, tok, ht, hf, data, off, hd, hl, hb => by
      cases tok <;> simp only [hasType, Bool.false_eq_true] at ht
      rename_i b
      have hl : At data off (Spec.word (if b then 1 else 0)) := hl
      rw [decodeParam, peek32_word hl hd, Res.ok_bind, asBool_word, Res.ok_bind, off_add hl hd, Res.ok_bind]
      simp [width, dynamic, enc]
  | .fixedBytes n, hc, tok, ht, hf, data, off, hd, hl, hb => by
      cases tok <;> simp only [hasType, Bool.false_eq_true, beq_iff_eq] at ht
      rename_i b
      subst ht
      simp only [bytesOk, decide_eq_true_eq] at hc
      have hl : At data off (Spec.padRight b) := hl
      have hp := length_padRight b
      have h1 := hl.le (by intro e; rw [e] at hp; simp at hp; omega)
      have h2 : At data off b := by rw [Spec.padRight, At.append] at hl; exact hl.1
      rw [decodeParam, takeBytes_at h2 (by omega) hd, Res.ok_bind, usizeAdd_ok (by omega), Res.ok_bind]
      simp only [width, dynamic, enc]
      congr 2
      omega
  | .bytes, _, tok, ht, hf, data, off, hd, hl, hb => by
      cases tok <;> simp only [hasType, Bool.false_eq_true] at ht
      rename_i b
      simp only [enc, dynamic] at hl hb
      obtain ⟨o, e1, e2, e3, e4, e5, e6, e7⟩ := decode_bytes_like (prof := prof) hd hl hb
      simp [decodeParam, e1, e2, e3, e4, e5, e6, e7, width, dynamic]
  | .string, _, tok, ht, hf, data, off, hd, hl, hb => by
      cases tok <;> simp only [hasType, Bool.false_eq_true] at ht
      rename_i s
      simp only [enc, dynamic, ← utf8_eq_core] at hl hb
      obtain ⟨o, e1, e2, e3, e4, e5, e6, e7⟩ := decode_bytes_like (prof := prof) hd hl hb
      simp [decodeParam, e1, e2, e3, e4, e5, e6, e7, width, dynamic, lossy_utf8]
  | .array t, hc, tok, ht, hf, data, off, hd, hl, hb => by
      cases tok <;> simp only [hasType, Bool.false_eq_true] at ht
      rename_i toks
      simp only [bytesOk] at hc
      simp only [countsFit, Bool.and_eq_true, decide_eq_true_eq] at hf
      simp only [enc, List.length_append, length_word] at hb
      simp only [enc, dynamic] at hl
      obtain ⟨o, h1, h2, h3, h4⟩ := hl
      rw [At.append, length_word] at h4
      have h5 := h4.1.le (by intro e; have := length_word toks.length; rw [e] at this; simp at this)
      rw [length_word] at h5
      have hloc := locatedAll_body h4.2 (by omega) (by omega)
      have hdd : (data.drop (o + 32)).length < 2 ^ 64 := by rw [List.length_drop]; omega
      have hloop := decodeLoop_located (prof := prof) hdd (decodesTo prof t hc) toks 0 ht hf.2 hloc (by omega)
      rw [decodeParam, peek32_word h3 hd, Res.ok_bind, asUsize_word h1, Res.ok_bind, peek32_word h4.1 hd,
        Res.ok_bind, asUsize_word hf.1, Res.ok_bind, usizeAdd_ok (by omega), Res.ok_bind, sliceFrom,
        if_pos h5, Res.ok_bind, hloop, Res.ok_bind]
      simp only
      rw [off_add h3 hd]
      simp [width, dynamic]
  | .fixedArray t n, hc, tok, ht, hf, data, off, hd, hl, hb => by
      cases tok <;> simp only [hasType, Bool.false_eq_true, Bool.and_eq_true, beq_iff_eq] at ht
      rename_i toks
      simp only [bytesOk] at hc
      simp only [countsFit] at hf
      simp only [enc] at hb
      simp only [enc, dynamic] at hl
      rw [decodeParam, type_isDynamic_eq, ← ht.1]
      cases hdy : dynamic t
      · rw [hdy] at hl
        have hst := allStatic_encAll toks t hdy
        have hloc := locatedAll_static hst hl
        have hloop := decodeLoop_located (prof := prof) hd (decodesTo prof t hc) toks off ht.2 hf hloc hb
        simp only [Bool.false_eq_true, if_false]
        rw [hloop, Res.ok_bind]
        simp [width, dynamic, hdy, enc, static_tails_length hst]
      · rw [hdy] at hl
        obtain ⟨o, h1, h2, h3, h4⟩ := hl
        have hloc := locatedAll_body h4 h2 hb
        have hdd : (data.drop o).length < 2 ^ 64 := by rw [List.length_drop]; omega
        have hloop := decodeLoop_located (prof := prof) hdd (decodesTo prof t hc) toks 0 ht.2 hf hloc hb
        simp only [if_true]
        rw [peek32_word h3 hd, Res.ok_bind, asUsize_word h1, Res.ok_bind, sliceFrom, if_pos h2, Res.ok_bind,
          hloop, Res.ok_bind]
        simp only
        rw [off_add h3 hd]
        simp [width, dynamic, hdy]
  | .tuple ts, hc, tok, ht, hf, data, off, hd, hl, hb => by
      cases tok <;> simp only [hasType, Bool.false_eq_true] at ht
      rename_i toks
      simp only [bytesOk] at hc
      simp only [countsFit] at hf
      simp only [enc] at hb
      simp only [enc, dynamic] at hl
      rw [decodeParam, type_anyDynamic_eq]
      cases hdy : dynamicAny ts
      · rw [hdy] at hl
        have hst := allStatic_encZip toks ts hdy
        have hloc := locatedAll_static hst hl
        have hloop := decodesAllTo prof ts hc toks ht hf data off hd hloc hb
        simp only [Bool.false_eq_true, if_false]
        rw [hloop, Res.ok_bind]
        simp [width, dynamic, hdy, enc, static_tails_length hst]
      · rw [hdy] at hl
        obtain ⟨o, h1, h2, h3, h4⟩ := hl
        have hloc := locatedAll_body h4 h2 hb
        have hdd : (data.drop o).length < 2 ^ 64 := by rw [List.length_drop]; omega
        have hloop := decodesAllTo prof ts hc toks ht hf _ 0 hdd hloc hb
        simp only [if_true]
        rw [peek32_word h3 hd, Res.ok_bind, asUsize_word h1, Res.ok_bind, if_neg (by omega), sliceFrom,
          if_pos h2, Res.ok_bind, hloop, Res.ok_bind]
        simp only
        rw [off_add h3 hd]
        simp [width, dynamic, hdy]
theorem decodesAllTo (prof : Profile) : ∀ (ts : List ParamType), bytesOkAll ts = true → ∀ toks,
    haveTypes toks ts = true → countsFitAll toks = true →
    ∀ (data : Bytes) (off : Nat), data.length < 2 ^ 64 → LocatedAll data off (encZip toks ts) →
      (layout (encZip toks ts)).length < 2 ^ 32 →
      decodeParams prof ts data off = .ok (toks, off + headSize (encZip toks ts))
  | [], _, toks, ht, _, data, off, _, _, _ => by
      cases toks with
      | nil => simp [decodeParams, encZip, headSize]
      | cons _ _ => simp [haveTypes] at ht
  | t :: ts, hc, toks, ht, hf, data, off, hd, hl, hb => by
      cases toks with
      | nil => simp [haveTypes] at ht
      | cons tok toks =>
        simp only [haveTypes, Bool.and_eq_true] at ht
        simp only [bytesOkAll, Bool.and_eq_true] at hc
        simp only [countsFitAll, Bool.and_eq_true] at hf
        simp only [encZip] at hb hl
        have h1 := part_length_le (ps := (dynamic t, enc tok t) :: encZip toks ts) (p := (dynamic t, enc tok t)) (by simp)
        have h2 := layout_cons_length_le (dynamic t, enc tok t) (encZip toks ts)
        rw [decodeParams, decodesTo prof t hc.1 tok ht.1 hf.1 data off hd hl.1 (by simp only at h1; omega), Res.ok_bind]
        simp only
        rw [decodesAllTo prof ts hc.2 toks ht.2 hf.2 data _ hd hl.2 (by omega), Res.ok_bind]
        simp only [encZip]
        congr 2
        cases dynamic t <;> simp [headSize, width] <;> omega
end

/-- decoding a specified encoding, possibly followed by other bytes -/
theorem decodeParams_spec (prof : Profile) (toks : List Token) (ts : List ParamType) (extra : Bytes)
    (ht : haveTypes toks ts = true) (hc : bytesOkAll ts = true) (hf : countsFitAll toks = true)
    (hb : (Spec.encodeArgs toks ts).length < 2 ^ 32)
    (he : (Spec.encodeArgs toks ts ++ extra).length < 2 ^ 64) :
    decodeParams prof ts (Spec.encodeArgs toks ts ++ extra) 0 = .ok (toks, headSize (encZip toks ts)) := by
  have hat : At (Spec.encodeArgs toks ts ++ extra) 0 (layout (encZip toks ts)) := ⟨extra, rfl⟩
  have := locatedAll_body hat (by omega) hb
  rw [List.drop_zero] at this
  rw [decodesAllTo prof ts hc toks ht hf _ 0 he this hb, Nat.zero_add]

end Ethabi
