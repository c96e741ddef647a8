import Verif.Lemmas.JsArgs
import Verif.Props.Post
/-!
Property C96: `multi_post` with any values as `size`, `parts` and `line_size`.
-/
namespace Yenc.Props
open Spec Yenc.Js

variable {lib : Lib} {sh : Number → Str}

/-- How Numbers are written: integers below 10^21 in decimal. -/
def WritesIntegers (sh : Number → Str) : Prop := ∀ n : Nat, n < 10 ^ 21 → sh (.fin n) = dec n

/-- `v` is the Number `n`, the BigInt `n`, or the string of its decimal digits. -/
def Stands (v : Prim) (n : Nat) : Prop := v = .num (.fin n) ∨ v = .big n ∨ v = .str (dec n)

theorem Stands.is (hs : WritesIntegers sh) {v : Prim} {n : Nat} (h : Stands v n) (hn : n ≤ 2 ^ 53) : v.Is sh n := by
  rcases h with rfl | rfl | rfl
  · exact Prim.is_num (hs n (by omega))
  · exact Prim.is_big n
  · exact Prim.is_str hn

/-- A way to write Numbers that has the property asked for. -/
def showIntegers : Number → Str
  | .fin q => if q.den = 1 ∧ 0 ≤ q.num then dec q.num.toNat else lit "?"
  | _ => lit "NaN"

theorem showIntegers_writes : WritesIntegers showIntegers := by
  intro n _
  simp [showIntegers, Rat.den_natCast, Rat.num_natCast]

/-- C96: size and parts may be given as Numbers, as BigInts or as decimal strings: every history of calls has the same outcomes, and leaves `part` and `pos` the same, as
with the integers themselves (for which C42-C48 say what they are).  A line size that is `undefined`, `null`, `0`, `''` or `false` is the same as 128. -/
theorem C96_same (hs : WritesIntegers sh) (name : Str) {size parts : Prim} {n p : Nat} (hn : Stands size n) (hp : Stands parts p) (bn : n ≤ 2 ^ 53) (bp : p ≤ 2 ^ 53)
    (line : Prim) (l : Nat) (hl : (line ∈ [.undef, .null, .num (.fin 0), .num .nan, .str [], .bool false, .big 0] ∧ l = 128) ∨ (line = .num (.fin l) ∧ 1 ≤ l ∧ l < 2 ^ 53))
    (ds : List (List Byte)) :
    let r := (multiPostV sh name size parts line).run lib ds
    let r' := (multiPost name n p l).run lib ds
    r.2 = r'.2 ∧ r.1.part = r'.1.part ∧ r.1.pos = r'.1.pos := by
  have e0 : multiPost name n p 128 = multiPost name n p 0 := rfl
  have h0 : PrimSim sh (multiPostV sh name size parts line) (multiPost name n p l) := by
    rcases hl with ⟨h1, rfl⟩ | ⟨rfl, h1, h2⟩
    · rw [e0]
      refine PrimSim.init name (hn.is hs bn) (hp.is hs bp) (.inl ⟨?_, rfl⟩) (hs 128 (by norm_num))
      simp only [List.mem_cons, List.not_mem_nil, or_false] at h1
      rcases h1 with rfl | rfl | rfl | rfl | rfl | rfl | rfl <;> simp [Prim.falsy, Number.falsy]
    · refine PrimSim.init name (hn.is hs bn) (hp.is hs bp) (.inr ⟨?_, by omega, toArg_nat (by omega), hs l (by omega)⟩) (hs 128 (by norm_num))
      simp only [Prim.falsy, Number.falsy, decide_eq_false_iff_not]
      exact_mod_cast (by omega : l ≠ 0)
  obtain ⟨a, b⟩ := h0.run (lib := lib) ds
  exact ⟨a, b.part, b.pos⟩

-- a size given as a string and parts given as a BigInt
example : Stands (.str (lit "11")) 11 ∧ Stands (.big 2) 2 ∧
    ((multiPostV showIntegers (lit "a") (.str (lit "5")) (.big 2) .undef).run genericLib [[1, 2], [3, 4, 5]]).2 =
      ((multiPost (lit "a") 5 2 128).run genericLib [[1, 2], [3, 4, 5]]).2 :=
  ⟨.inr (.inr (by decide)), .inr (.inl rfl),
    (C96_same showIntegers_writes _ (.inr (.inr (by decide))) (.inr (.inl rfl)) (by norm_num) (by norm_num) _ 128 (.inl ⟨by simp, rfl⟩) _).1⟩

/-! ### Values no count is equal to -/

theorem encodeMulti_fields (e : YEncV) (d : List Byte) : (e.encodeMulti lib d).1.size = e.size ∧ (e.encodeMulti lib d).1.parts = e.parts ∧
    (e.encodeMulti lib d).1.mode = e.mode ∧ (e.encodeMulti lib d).1.part = e.part + 1 := by
  unfold YEncV.encodeMulti YEncV.sums YEncV.finish
  dsimp only
  repeat' split
  all_goals exact ⟨rfl, rfl, rfl, rfl⟩

/-- What a call that returns has checked, and what it returns. -/
theorem encodeMulti_ret (h : lib.IsLib) (e : YEncV) (d out : List Byte) (hr : (e.encodeMulti lib d).2 = .ret out) :
    e.parts.gtNat (e.part + 1) = false ∧ e.size.gtNat (e.pos + d.length) = false ∧ (e.encodeMulti lib d).1.pos = e.pos + d.length ∧
      ∃ pre pcrc full, pcrc.length = 4 ∧ out = pre ++ ascii (lit " pcrc32=" ++ hex pcrc ++ full) ∧
        (e.parts.eqNat (e.part + 1) = true ∧ e.size.eqNat (e.pos + d.length) = true ∨ full = []) := by
  have hf : ∀ (e : YEncV) yi crc f, (e.finish lib d yi crc f).2 = .ret out →
      (e.finish lib d yi crc f).1.pos = e.pos + d.length ∧ ∃ pre, out = pre ++ ascii (lit " pcrc32=" ++ hex crc ++ f) := by
    intro e yi crc f hr
    unfold YEncV.finish at hr ⊢
    cases yi with
    | none => simp at hr
    | some yi =>
      dsimp only at hr ⊢
      cases hb : Enc.apiEncode lib.enc [.buffer d, e.lineSize.toArg] with
      | ub => rw [hb] at hr; simp at hr
      | throw m => rw [hb] at hr; simp at hr
      | ret body =>
        rw [hb] at hr
        simp only [Outcome.ret.injEq] at hr
        refine ⟨rfl, ascii (lit "=ybegin part=" ++ dec e.part) ++ yi ++ ascii (lit "=ypart begin=" ++ dec (e.pos + 1) ++ lit " end=" ++ dec (e.pos + d.length) ++ lit "\r\n") ++ body ++
          ascii (lit "\r\n=yend size=" ++ dec d.length ++ lit " part=" ++ dec e.part), ?_⟩
        rw [← hr]
        simp [partText, ascii_append, List.append_assoc]
  unfold YEncV.encodeMulti at hr ⊢
  dsimp only at hr ⊢
  by_cases g1 : e.parts.gtNat (e.part + 1) = true
  · rw [if_pos g1] at hr; simp at hr
  rw [if_neg g1] at hr ⊢
  by_cases g2 : e.size.gtNat (e.pos + d.length) = true
  · rw [if_pos g2] at hr; simp at hr
  rw [if_neg g2] at hr ⊢
  refine ⟨by simpa using g1, by simpa using g2, ?_⟩
  unfold YEncV.sums at hr ⊢
  rw [crc32_eq h] at hr ⊢
  dsimp only at hr ⊢
  generalize Crc.apiCombine lib.crc _ = o at hr ⊢
  cases o with
  | ub => simp at hr
  | throw m => simp at hr
  | ret full =>
    dsimp only at hr ⊢
    by_cases g3 : e.parts.eqNat (e.part + 1) = true
    · rw [if_pos g3] at hr ⊢
      by_cases g4 : e.size.eqNat (e.pos + d.length) = true
      · rw [if_neg (by simp [g4])] at hr ⊢
        obtain ⟨a, pre, b⟩ := hf _ _ _ _ hr
        exact ⟨a, pre, _, _, (Crc.packCrc_buf _).1, b, .inl ⟨g3, g4⟩⟩
      · rw [if_pos (by simpa using g4)] at hr; simp at hr
    · rw [if_neg g3] at hr ⊢
      obtain ⟨a, pre, b⟩ := hf _ _ _ _ hr
      exact ⟨a, pre, _, _, (Crc.packCrc_buf _).1, b, .inr rfl⟩

theorem run_multi (e : YEncV) (hm : e.mode = .multi) (ds : List (List Byte)) (i : Nat) (hi : i < ds.length) :
    ∃ e' : YEncV, e'.mode = .multi ∧ e'.size = e.size ∧ e'.parts = e.parts ∧ e'.part = e.part + i ∧ (e.run lib ds).2[i]? = some (e'.encodeMulti lib ds[i]).2 := by
  induction ds generalizing e i with
  | nil => simp at hi
  | cons d ds ih =>
    have he : e.encode lib d = e.encodeMulti lib d := by simp [YEncV.encode, hm]
    cases i with
    | zero => exact ⟨e, hm, rfl, rfl, rfl, by simp [YEncV.run, he]⟩
    | succ i =>
      obtain ⟨f1, f2, f3, f4⟩ := encodeMulti_fields (lib := lib) e d
      obtain ⟨e', a, b, c, k, r⟩ := ih (e.encode lib d).1 (by rw [he, f3, hm]) i (by simpa using hi)
      refine ⟨e', a, by rw [b, he, f1], by rw [c, he, f2], by rw [k, he, f4]; omega, ?_⟩
      simpa [YEncV.run] using r

theorem multiPostV_multi (name : Str) (size parts line : Prim) (hp : Number.lt (.fin 1) parts.numeric = true) :
    (multiPostV sh name size parts line).mode = .multi ∧ (multiPostV sh name size parts line).size = size ∧ (multiPostV sh name size parts line).parts = parts ∧
      (multiPostV sh name size parts line).part = 0 := by
  unfold multiPostV
  dsimp only
  rw [if_pos hp]
  exact ⟨rfl, rfl, rfl, rfl⟩

/-- C96: whatever the three values are, the encoder is for several parts exactly if `parts > 1`.  Then call number `k` throws if `k > parts`, and a call that returns gives a part
that ends with its own checksum and, if it is the last one (`k == parts`) and completes the file, the checksum of the file.  So if no count is equal to `parts` (a fraction,
`Infinity`) or no length is equal to `size` (`undefined`, `null`, `NaN`, a fraction, a string that is not a number), no part ever has the checksum of the file, and the last
part is never produced. -/
theorem C96_parts (h : lib.IsLib) (name : Str) (size parts line : Prim) (hp : Number.lt (.fin 1) parts.numeric = true) (ds : List (List Byte)) (i : Nat)
    (out : List Byte) (ho : ((multiPostV sh name size parts line).run lib ds).2[i]? = some (.ret out)) :
    Number.lt parts.numeric (.fin (i + 1 : ℕ)) = false ∧
      ∃ pre pcrc full, pcrc.length = 4 ∧ out = pre ++ ascii (lit " pcrc32=" ++ hex pcrc ++ full) ∧
        ((∀ n, size.eqNat n = false) ∨ parts.eqNat (i + 1) = false → full = []) ∧
        ((∀ n, size.eqNat n = false) → parts.eqNat (i + 1) = false) := by
  obtain ⟨m1, m2, m3, m4⟩ := multiPostV_multi (sh := sh) name size parts line hp
  have hlen : ∀ (e : YEncV) ds, (e.run lib ds).2.length = ds.length := by
    intro e ds
    induction ds generalizing e with
    | nil => rfl
    | cons d ds ih => simp [YEncV.run, ih]
  have hi : i < ds.length := by
    have := (List.getElem?_eq_some_iff.mp ho).1
    rwa [hlen] at this
  obtain ⟨e', k1, k2, k3, k4, k5⟩ := run_multi (lib := lib) _ m1 ds i hi
  rw [k5] at ho
  have hr := Option.some.inj ho
  obtain ⟨c1, _, _, pre, pcrc, full, c4, c5, c6⟩ := encodeMulti_ret h e' ds[i] out hr
  rw [k3, m3, k4, m4, Nat.zero_add] at c1 c6
  rw [k2, m2] at c6
  refine ⟨c1, pre, pcrc, full, c4, c5, ?_, ?_⟩
  · rintro (hx | hx)
    · rcases c6 with ⟨_, c⟩ | c
      · simp [hx] at c
      · exact c
    · rcases c6 with ⟨c, _⟩ | c
      · simp [hx] at c
      · exact c
  · intro hx
    by_contra hc
    have hc' : e'.parts.eqNat (e'.part + 1) = true := by rw [k3, m3, k4, m4, Nat.zero_add]; simpa using hc
    have hs' : ∀ n, e'.size.eqNat n = false := by rw [k2, m2]; exact hx
    unfold YEncV.encodeMulti YEncV.sums at hr
    rw [crc32_eq h] at hr
    dsimp only at hr
    split at hr
    · simp at hr
    split at hr
    · simp at hr
    split at hr
    · simp at hr
    · simp at hr
    · rw [if_pos (by simp [hs'])] at hr
      simp at hr

/-- Numbers and values that no natural number is `==` to. -/
theorem eqNat_never {v : Prim} : (∀ n, v.eqNat n = false) ↔ v = .undef ∨ v = .null ∨ ∀ n : Nat, v.numeric ≠ .fin n := by
  have key : ∀ w : Number, (∀ n : Nat, (!Number.ne (.fin n) w) = false) ↔ ∀ n : Nat, w ≠ .fin n := by
    intro w
    refine forall_congr' fun n => ?_
    cases w <;> simp [Number.ne, eq_comm]
  cases v with
  | undef => simp [Prim.eqNat]
  | null => simp [Prim.eqNat]
  | bool b => simpa [Prim.eqNat] using key (Prim.bool b).numeric
  | num b => simpa [Prim.eqNat] using key (Prim.num b).numeric
  | big b => simpa [Prim.eqNat] using key (Prim.big b).numeric
  | str b => simpa [Prim.eqNat] using key (Prim.str b).numeric

-- a fraction as the number of parts, no size at all
example : Number.lt (.fin 1) (Prim.num (.fin (5 / 2))).numeric = true ∧ (∀ n, (Prim.num (.fin (5 / 2))).eqNat n = false) ∧ ∀ n, Prim.undef.eqNat n = false := by
  refine ⟨by decide +kernel, eqNat_never.mpr (.inr (.inr fun n hn => ?_)), fun _ => rfl⟩
  have h1 : ((5 / 2 : ℚ)) = n := Number.fin.inj hn
  have h2 : ((5 / 2 : ℚ)).den = 1 := by rw [h1]; exact Rat.den_natCast n
  norm_num at h2

-- parts of such an encoder: two are given out, then it is full; none has the checksum of the file
example : ((multiPostV showIntegers (lit "a") (.num (.inf false)) (.num (.fin (5 / 2))) .undef).run genericLib [[1], [2], [3]]).2.map returned =
    [true, true, false] := by decide +kernel

/-- C96: no more bytes are taken than `size`, as far as `size` can be compared with a Number. -/
theorem C96_bytes (h : lib.IsLib) (name : Str) (size parts line : Prim) (hp : Number.lt (.fin 1) parts.numeric = true) (ds : List (List Byte)) :
    let e := ((multiPostV sh name size parts line).run lib ds).1
    e.pos = 0 ∨ Number.lt size.numeric (.fin e.pos) = false := by
  have key : ∀ ds (e : YEncV), e.mode = .multi → e.size = size → (e.pos = 0 ∨ Number.lt size.numeric (.fin e.pos) = false) →
      (e.run lib ds).1.pos = 0 ∨ Number.lt size.numeric (.fin (e.run lib ds).1.pos) = false := by
    intro ds
    induction ds with
    | nil => intro e _ _ hh; exact hh
    | cons d ds ih =>
      intro e hm hs hh
      have he : e.encode lib d = e.encodeMulti lib d := by simp [YEncV.encode, hm]
      obtain ⟨f1, f2, f3, f4⟩ := encodeMulti_fields (lib := lib) e d
      have := ih (e.encode lib d).1 (by rw [he, f3, hm]) (by rw [he, f1, hs]) ?_
      · simpa [YEncV.run] using this
      rw [he]
      by_cases hr : ∃ out, (e.encodeMulti lib d).2 = .ret out
      · obtain ⟨out, hr⟩ := hr
        obtain ⟨_, c2, c3, _⟩ := encodeMulti_ret h e d out hr
        rw [c3]
        right
        rw [hs] at c2
        exact c2
      · have : (e.encodeMulti lib d).1.pos = e.pos := by
          unfold YEncV.encodeMulti YEncV.sums YEncV.finish at hr ⊢
          dsimp only at hr ⊢
          repeat' split at hr
          all_goals first | (exact absurd ⟨_, rfl⟩ hr) | skip
          all_goals simp_all
        rw [this]
        exact hh
  obtain ⟨m1, m2, _, _⟩ := multiPostV_multi (sh := sh) name size parts line hp
  refine key ds _ m1 m2 (.inl ?_)
  unfold multiPostV
  dsimp only
  split <;> rfl

/-! ### One part -/

/-- C96: if not `parts > 1` (also `undefined`, `NaN`, `'abc'`), the encoder is for a single post: a call returns exactly if `size == data.length`, and the header has
`size` as it was given. -/
theorem C96_single (h : lib.IsLib) (hs : WritesIntegers sh) (name : Str) (size parts : Prim) (hp : Number.lt (.fin 1) parts.numeric = false) (l : Nat) (h1 : 1 ≤ l)
    (h2 : l + 6 < 2 ^ 31) (d : List Byte) :
    let e := multiPostV sh name size parts (.num (.fin l))
    (size.eqNat d.length = false → e.encode lib d = (e, .throw "File size doesn't match total data length")) ∧
    (size.eqNat d.length = true → (e.encode lib d).2 =
      .ret (utf8Encode (lit "=ybegin line=" ++ dec l ++ lit " size=" ++ size.toStr sh ++ lit " name=") ++ fileName name ++ text "\r\n" ++ Spec.encode l true 0 d ++
        text ("\r\n=yend size=" ++ toString d.length ++ " crc32=" ++ hex8 (Crc.crc1 0 d)))) := by
  have hf : (Prim.num (.fin (l : ℚ))).falsy = false := by
    simp only [Prim.falsy, Number.falsy, decide_eq_false_iff_not]
    exact_mod_cast (by omega : l ≠ 0)
  have ha := toArg_nat (n := l) (by omega)
  have hsh : sh (.fin l) = dec l := hs l (by omega)
  constructor
  · intro hd
    simp only [multiPostV, hp, hf, Bool.false_eq_true, if_false, YEncV.encode, YEncV.encodeSingle, hd, Bool.not_false, if_true]
  · intro hd
    have e1 : (Prim.num (.fin (l : ℚ))).toStr sh = dec l := hsh
    have e2 : text "\r\n" = [CR, LF] := by decide
    simp only [multiPostV, hp, hf, Bool.false_eq_true, if_false, YEncV.encode, YEncV.encodeSingle, hd, Bool.not_true, crc32_eq h, ha, encode_eq h d l h1 h2, e1,
      singleText, text_append, text_toString, text_hex8 _ _ (Crc.packCrc_buf _), e2, ascii_append, List.append_assoc]
    simp only [text_lit]

/-- C96, false as coded for the text of the header: these sizes are accepted and written as given, although the header is to hold a decimal number on one line. -/
theorem C96_header_false (h : lib.IsLib) (hs : WritesIntegers sh) (name : Str) : ∀ size ∈ [Prim.bool true, .str (lit "1\r\n"), .str (lit "0x1"), .str (lit "1e0")],
    ∃ rest, ((multiPostV sh name size .undef (.num (.fin 128))).encode lib [65]).2 =
      .ret (ascii (lit "=ybegin line=128 size=" ++ size.toStr sh ++ lit " name=") ++ rest) := by
  intro size hm
  have key : ∀ s : Prim, s.eqNat 1 = true → (∀ c ∈ s.toStr sh, c < 128) → ∃ rest, ((multiPostV sh name s .undef (.num (.fin 128))).encode lib [65]).2 =
      .ret (ascii (lit "=ybegin line=128 size=" ++ s.toStr sh ++ lit " name=") ++ rest) := by
    intro s h1 h2
    have := (C96_single h hs name s .undef rfl 128 (by decide) (by decide) [65]).2 h1
    rw [show ((128 : ℕ) : ℚ) = 128 by norm_num] at this
    refine ⟨fileName name ++ (text "\r\n" ++ (Spec.encode 128 true 0 [65] ++ text ("\r\n=yend size=" ++ toString [(65 : Byte)].length ++ " crc32=" ++ hex8 (Crc.crc1 0 [65])))), this.trans ?_⟩
    have e : lit "=ybegin line=" ++ dec 128 ++ lit " size=" = lit "=ybegin line=128 size=" := by decide
    rw [e, utf8Encode_asciis, List.append_assoc, List.append_assoc, List.append_assoc]
    repeat' apply append_lt
    all_goals first | exact h2 | exact lit_lt (by decide)
  simp only [List.mem_cons, List.not_mem_nil, or_false] at hm
  rcases hm with rfl | rfl | rfl | rfl
  all_goals exact key _ (by decide +kernel) (lit_lt (by decide))

/-! ### The line size -/

/-- C96, false as coded: with a line size that is not a Number, for instance the string `'128'`, the native function reads it as if it were one; the outcome is undefined,
whichever implementation is in use. -/
theorem C96_line_false (h : lib.IsLib) (name : Str) (parts line : Prim) (hp : Number.lt (.fin 1) parts.numeric = false) (hl : line.falsy = false)
    (hn : ∀ n, line ≠ .num n) (d : List Byte) (hd : d ≠ []) :
    ((multiPostV sh name (.num (.fin d.length)) parts line).encode lib d).2 = .ub := by
  have e1 : (Prim.num (.fin (d.length : ℚ))).eqNat d.length = true := by
    have := (Prim.is_num (sh := fun _ => dec d.length) (n := d.length) rfl).eq d.length
    simpa using this
  have e2 : Enc.apiEncode lib.enc [.buffer d, line.toArg] = .ub := by
    unfold Enc.apiEncode
    simp only [if_neg hd]
    have : Enc.lineArgs [line.toArg] = .ub := by
      cases line with
      | num n => exact absurd rfl (hn n)
      | undef => simp [Prim.falsy] at hl
      | null => simp [Prim.falsy] at hl
      | bool b => rfl
      | big z => rfl
      | str s => rfl
    rw [this]; rfl
  simp only [multiPostV, hp, hl, Bool.false_eq_true, if_false, YEncV.encode, YEncV.encodeSingle, e1, Bool.not_true, crc32_eq h, e2]

example : (Prim.str (lit "128")).falsy = false ∧ ∀ n, Prim.str (lit "128") ≠ .num n := ⟨rfl, nofun⟩

theorem toInt32_wrap (l : Nat) (h : l < 2 ^ 31) : toInt32 (2 ^ 32 + l) = l := by
  unfold toInt32
  rw [BitVec.toInt_ofInt]
  rw [Int.bmod_def]
  split <;> omega

/-- C96, false as coded: a line size of `2^32 + l` is written to the header as it is, but the lines have `l` characters. -/
theorem C96_line_wraps_false (h : lib.IsLib) (hs : WritesIntegers sh) (name : Str) (l : Nat) (h1 : 1 ≤ l) (h2 : l + 6 < 2 ^ 31) (d : List Byte)
    (hdl : d.length < 10 ^ 21) :
    ((multiPostV sh name (.num (.fin d.length)) .undef (.num (.fin (2 ^ 32 + l : ℕ)))).encode lib d).2 =
      .ret (text ("=ybegin line=" ++ toString (2 ^ 32 + l) ++ " size=" ++ toString d.length ++ " name=") ++ fileName name ++ text "\r\n" ++ Spec.encode l true 0 d ++
        text ("\r\n=yend size=" ++ toString d.length ++ " crc32=" ++ hex8 (Crc.crc1 0 d))) := by
  have e1 : (Prim.num (.fin (d.length : ℚ))).eqNat d.length = true := by
    have := (Prim.is_num (sh := fun _ => dec d.length) (n := d.length) rfl).eq d.length
    simpa using this
  have hf : (Prim.num (.fin ((2 ^ 32 + l : ℕ) : ℚ))).falsy = false := by
    simp only [Prim.falsy, Number.falsy, decide_eq_false_iff_not]
    exact_mod_cast (by omega : 2 ^ 32 + l ≠ 0)
  have ha := toArg_nat (n := 2 ^ 32 + l) (by omega)
  have he : Enc.apiEncode lib.enc [.buffer d, .int ((2 ^ 32 + l : ℕ) : Int)] = .ret (Spec.encode l true 0 d) := by
    rw [← encode_eq h d l h1 h2]
    unfold Enc.apiEncode Enc.lineArgs
    simp only [argToInt, Outcome.bind]
    rw [show (((2 ^ 32 + l : ℕ)) : Int) = 2 ^ 32 + l by push_cast; rfl, toInt32_wrap l (by omega), toInt32_of_lt l (by omega)]
  have hp : Number.lt (.fin 1) Prim.undef.numeric = false := rfl
  have e3 : (Prim.num (.fin ((2 ^ 32 + l : ℕ) : ℚ))).toStr sh = dec (2 ^ 32 + l) := hs _ (by omega)
  have e4 : (Prim.num (.fin (d.length : ℚ))).toStr sh = dec d.length := hs _ hdl
  have e5 : ∀ b c : Nat, utf8Encode (lit "=ybegin line=" ++ dec b ++ lit " size=" ++ dec c ++ lit " name=") =
      ascii (lit "=ybegin line=" ++ dec b ++ lit " size=" ++ dec c ++ lit " name=") := by
    intro b c
    refine utf8Encode_asciis _ ?_
    repeat' apply append_lt
    all_goals first | exact dec_lt_128 _ | exact lit_lt (by decide)
  have e2 : text "\r\n" = [CR, LF] := by decide
  simp only [multiPostV, hp, hf, Bool.false_eq_true, if_false, YEncV.encode, YEncV.encodeSingle, e1, Bool.not_true, crc32_eq h, ha, he, e3, e4, e5, singleText]
  simp only [text_append, text_toString, text_hex8 _ _ (Crc.packCrc_buf _), e2, ascii_append, List.append_assoc]
  simp only [text_lit]

/-- C96: with a negative line size (down to `-2^31`) no data is ever encoded; a single-part encoder is used up by the attempt. -/
theorem C96_line_negative (h : lib.IsLib) (name : Str) (parts : Prim) (hp : Number.lt (.fin 1) parts.numeric = false) (k : Nat) (h1 : 1 ≤ k) (h2 : k ≤ 2 ^ 31)
    (d : List Byte) (hd : d ≠ []) :
    let e := multiPostV sh name (.num (.fin d.length)) parts (.num (.fin (-(k : ℚ))))
    (e.encode lib d).2 = .throw "Line size must be at least 1 byte" ∧
      ∀ d', ((e.encode lib d).1.encode lib d').2 = .throw "Exceeded number of specified yEnc parts" := by
  have e1 : (Prim.num (.fin (d.length : ℚ))).eqNat d.length = true := by
    have := (Prim.is_num (sh := fun _ => dec d.length) (n := d.length) rfl).eq d.length
    simpa using this
  have e2 : (-(k : ℚ)) = ((-(k : ℤ) : ℤ) : ℚ) := by push_cast; rfl
  have hf : (Prim.num (.fin (-(k : ℚ)))).falsy = false := by
    simp only [Prim.falsy, Number.falsy, decide_eq_false_iff_not]
    rw [e2]
    exact_mod_cast (by omega : -(k : ℤ) ≠ 0)
  have ha : (Prim.num (.fin (-(k : ℚ)))).toArg = .int (-(k : ℤ)) := by
    rw [e2]
    simp only [Prim.toArg, Rat.den_intCast, Rat.num_intCast, true_and]
    rw [if_pos (by omega)]
  have ht : toInt32 (-(k : ℤ)) = -(k : ℤ) := by
    unfold toInt32
    rw [BitVec.toInt_ofInt, Int.bmod_def]
    split <;> omega
  have he : Enc.apiEncode lib.enc [.buffer d, .int (-(k : ℤ))] = .throw "Line size must be at least 1 byte" := by
    unfold Enc.apiEncode Enc.lineArgs
    simp only [argToInt, Outcome.bind, ht]
    rw [if_neg hd, if_neg (by omega : ¬ (-(k : ℤ) = 0)), if_pos (by omega : -(k : ℤ) < 0)]
  dsimp only
  constructor
  · simp only [multiPostV, hp, hf, Bool.false_eq_true, if_false, YEncV.encode, YEncV.encodeSingle, e1, Bool.not_true, crc32_eq h, ha, he]
  · intro d'
    simp only [multiPostV, hp, hf, Bool.false_eq_true, if_false, YEncV.encode, YEncV.encodeSingle, e1, Bool.not_true, crc32_eq h, ha, he]

end Yenc.Props
