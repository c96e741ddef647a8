import Verif.Props.FromPost
import Verif.Props.Crc
/-!
Properties C81, C82: putting a file together from its parts, and its checksum from theirs.
-/
namespace Yenc.Props
open Spec Yenc.Js

variable {lib : Lib} {env : Env}

/-! ### Checksums -/

/-- The caller's loop: parse every text, and combine the checksums found (`crc = crc32_combine(crc, post.crc32, post.data.length)`). -/
def combineAll (lib : Lib) (env : Env) (isRaw : Bool) : List Byte → List (List Byte) → Outcome (List Byte)
  | crc, [] => .ret crc
  | crc, t :: ts =>
    (fromPost lib env t isRaw).bind fun r =>
    match r with
    | .error _ => .throw "no post"
    | .ok p =>
      match p.crc32, p.data with
      | some c, some d => (Crc.apiCombine lib.crc [.buffer crc, .buffer c, .int d.length]).bind fun crc' => combineAll lib env isRaw crc' ts
      | _, _ => .throw "no data"

/-- C81: for any texts that parse as posts with data (not only ones made by the encoder), combining the checksums of the results in order, without looking at
the data, gives the CRC-32 of all the data. -/
theorem C81_combined_crc (h : lib.IsLib) (isRaw : Bool) (texts outs : List (List Byte))
    (hp : List.Forall₂ (fun t out => ∃ p, fromPost lib env t isRaw = .ret (.ok p) ∧ p.data = some out) texts outs) (hlen : ∀ o ∈ outs, o.length < 2 ^ 63)
    (crc : BitVec 32) (hc : IsCrc32 0 outs.flatten crc) :
    ∃ buf, combineAll lib env isRaw [0#8, 0#8, 0#8, 0#8] texts = .ret buf ∧ CrcBuf buf crc := by
  have key : ∀ (done : List Byte) (texts outs : List (List Byte)),
      List.Forall₂ (fun t out => ∃ p, fromPost lib env t isRaw = .ret (.ok p) ∧ p.data = some out) texts outs → (∀ o ∈ outs, o.length < 2 ^ 63) →
      combineAll lib env isRaw (Crc.packCrc (Crc.crc1 0 done)) texts = .ret (Crc.packCrc (Crc.crc1 0 (done ++ outs.flatten))) := by
    intro done texts outs hp hlen
    induction hp generalizing done with
    | nil => simp [combineAll]
    | @cons t out ts outs ht _ ih =>
      obtain ⟨p, e1, e2⟩ := ht
      obtain ⟨_, _, c, cbuf, _, _, _, _, _, _, e3, e4, e5⟩ := (C60_from_post_sound h t isRaw p e1).2.2.1 out e2
      have hcb : cbuf = Crc.packCrc (Crc.crc1 0 out) := by
        rw [Crc.isCrc32_unique e5 (Crc.crc1_spec 0 out)] at e4
        exact e4.pack.symm
      rw [combineAll, e1]
      simp only [Outcome.bind, e3, e2]
      have hx := C27_combine h.crc 0 0 0 done out _ _ [] (hlen out (by simp)) (Crc.apiCrc32_nil h.crc.correct 0 done) (Crc.apiCrc32_nil h.crc.correct 0 out)
      rw [hcb, hx, Crc.apiCrc32_nil h.crc.correct]
      simp only [Outcome.bind]
      rw [ih (done ++ out) fun o ho => hlen o (by simp [ho])]
      simp [List.append_assoc]
  have e := key [] texts outs hp hlen
  rw [List.nil_append] at e
  refine ⟨_, e, ?_⟩
  have hu := Crc.isCrc32_unique hc (Crc.crc1_spec 0 _)
  rw [hu]
  exact Crc.packCrc_buf _

-- two texts that parse, not made by the encoder
example : ([text "=ybegin line=9 size=1 name=a\r\nk\r\n=yend size=1\r\n", text "=ybegin line=9 size=1 name=b\r\nl\r\n=yend size=1\r\n"].map fun t =>
    match fromPost genericLib natEnv t false with | .ret (.ok p) => p.data | _ => none) = [some [65#8], some [66#8]] := by decide +kernel

/-- C81, posts made by the encoder: the result, as hexadecimal text, is the `crc32` that the last part carries. -/
theorem C81_last_part_crc (h : lib.IsLib) (hl : env.Lawful) (name : Str) (hn : SafeName name) (ls : Nat) (h1 : 1 ≤ ls) (h2 : ls + 6 < 2 ^ 31) (fs : List (List Byte))
    (hp : 1 < fs.length) (hne : ∀ d ∈ fs, d ≠ []) (hs : fs.flatten.length < 2 ^ 53) (isRaw : Bool) :
    ∃ (ps : List (List Byte)) (last : List Byte) (p : Js.Post) (whole : BitVec 32) (buf : List Byte),
      (feedParts lib name ls fs).2 = ps.map .ret ∧ ps.getLast? = some last ∧ fromPost lib env last isRaw = .ret (.ok p) ∧
      combineAll lib env isRaw [0#8, 0#8, 0#8, 0#8] ps = .ret buf ∧ CrcBuf buf whole ∧ IsCrc32 0 fs.flatten whole ∧
      field p "end" "crc32" = some (lit (hex8 whole)) := by
  obtain ⟨ps, a1, a2, a3⟩ := C45_parts h hl name hn ls h1 h2 fs hp hne hs isRaw
  have hf : List.Forall₂ (fun t out => ∃ p, fromPost lib env t isRaw = .ret (.ok p) ∧ p.data = some out) ps fs := by
    rw [List.forall₂_iff_get]
    refine ⟨a2, fun i h3 h4 => ?_⟩
    obtain ⟨post, p, _, _, e1, e2, _, _, e3, _⟩ := a3 i h4
    rw [List.getElem?_eq_getElem h3] at e1
    simp only [Option.some.injEq] at e1
    exact ⟨p, by rw [List.get_eq_getElem, e1]; exact e2, by rw [e3]; rfl⟩
  have hlen : ∀ o ∈ fs, o.length < 2 ^ 63 := by
    intro o ho
    have := (List.sublist_flatten_of_mem ho).length_le
    omega
  obtain ⟨post, p, _, _, e1, e2, -, -, -, -, -, -, -, -, -, -, -, -, -, -, -, -, -, -, e3⟩ := a3 (fs.length - 1) (by omega)
  obtain ⟨whole, w1, w2⟩ := e3 (by omega)
  obtain ⟨buf, b1, b2⟩ := C81_combined_crc h isRaw ps fs hf hlen whole w1
  refine ⟨ps, post, p, whole, buf, a1, ?_, e2, b1, b2, w1, w2⟩
  rw [List.getLast?_eq_getElem?, a2]; exact e1

example := C81_last_part_crc genericLib_isLib natEnv_lawful (lit "n") ⟨by decide, by decide, by decide, by decide⟩ 128 (by decide) (by decide) [[65#8], [214#8]] (by decide) (by decide) (by decide) true

/-! ### Data -/

/-- The number a decimal text stands for. -/
def decimal (s : Str) : Nat := s.foldl (fun a c => 10 * a + (c - 48)) 0

/-- The file with `d` written at position `pos`. -/
def writeAt (file : List Byte) (pos : Nat) (d : List Byte) : List Byte := file.take pos ++ d ++ file.drop (pos + d.length)

/-- The caller's loop: parse what arrives, and write the data of each part where its range says. -/
def assemble (lib : Lib) (env : Env) (isRaw : Bool) : List Byte → List (List Byte) → Outcome (List Byte)
  | file, [] => .ret file
  | file, t :: ts =>
    (fromPost lib env t isRaw).bind fun r =>
    match r with
    | .error _ => .throw "no post"
    | .ok p =>
      match p.data, field p "part" "begin" with
      | some d, some b => assemble lib env isRaw (writeAt file (decimal b - 1) d) ts
      | _, _ => .throw "no part"

theorem decimal_lit (n : Nat) : decimal (lit (toString n)) = n := by
  rw [lit_toString]; exact decVal_dec n

theorem flatten_cut (fs : List (List Byte)) (i : Nat) (hi : i < fs.length) : fs.flatten = (fs.take i).flatten ++ fs[i] ++ (fs.drop (i + 1)).flatten := by
  conv_lhs => rw [← List.take_append_drop (i + 1) fs, List.flatten_append, List.take_succ_eq_append_getElem hi, List.flatten_append]
  simp

theorem flatten_covered (fs : List (List Byte)) (k : Nat) (hk : k < fs.flatten.length) :
    ∃ i, ∃ hi : i < fs.length, (fs.take i).flatten.length ≤ k ∧ k < (fs.take i).flatten.length + fs[i].length := by
  induction fs generalizing k with
  | nil => simp at hk
  | cons d ds ih =>
    by_cases h : k < d.length
    · exact ⟨0, by simp, by simp, by simpa using h⟩
    · rw [List.flatten_cons, List.length_append] at hk
      obtain ⟨i, hi, h1, h2⟩ := ih (k - d.length) (by omega)
      refine ⟨i + 1, by simpa using hi, ?_, ?_⟩
      · simp only [List.take_succ_cons, List.flatten_cons, List.length_append]; omega
      · simp only [List.take_succ_cons, List.flatten_cons, List.length_append, List.getElem_cons_succ]; omega

theorem writeAt_get (file : List Byte) (pos : Nat) (d : List Byte) (h : pos + d.length ≤ file.length) (k : Nat) :
    (writeAt file pos d)[k]? = if pos ≤ k ∧ k < pos + d.length then d[k - pos]? else file[k]? := by
  unfold writeAt
  rcases Nat.lt_or_ge k pos with h1 | h1
  · rw [if_neg (by omega), List.append_assoc, List.getElem?_append_left (by rw [List.length_take]; omega), List.getElem?_take_of_lt h1]
  rcases Nat.lt_or_ge k (pos + d.length) with h2 | h2
  · rw [if_pos ⟨h1, h2⟩, List.getElem?_append_left (by rw [List.length_append, List.length_take]; omega),
      List.getElem?_append_right (by rw [List.length_take]; omega), List.length_take, Nat.min_eq_left (by omega)]
  · rw [if_neg (by omega), List.getElem?_append_right (by rw [List.length_append, List.length_take]; omega), List.getElem?_drop]
    congr 1
    rw [List.length_append, List.length_take]; omega

/-- C82: the parts of a file may arrive in any order, and more than once: as soon as every part has arrived, the file is complete, whatever was in the
buffer of `size` bytes before. -/
theorem C82_any_order (h : lib.IsLib) (hl : env.Lawful) (name : Str) (hn : SafeName name) (ls : Nat) (h1 : 1 ≤ ls) (h2 : ls + 6 < 2 ^ 31) (fs : List (List Byte))
    (hp : 1 < fs.length) (hne : ∀ d ∈ fs, d ≠ []) (hs : fs.flatten.length < 2 ^ 53) (isRaw : Bool) (ps : List (List Byte))
    (hps : (feedParts lib name ls fs).2 = ps.map .ret) (arrived : List (List Byte)) (ha : ∀ t, t ∈ arrived ↔ t ∈ ps) (file : List Byte)
    (hf : file.length = fs.flatten.length) :
    assemble lib env isRaw file arrived = .ret fs.flatten := by
  obtain ⟨ps', a1, a2, a3⟩ := C45_parts h hl name hn ls h1 h2 fs hp hne hs isRaw
  have hpp : ps' = ps := by
    have := a1.symm.trans hps
    exact List.map_injective_iff.2 (fun a b h => by injection h) this
  subst hpp
  have key : ∀ (arrived : List (List Byte)) (done : List Nat) (file : List Byte), (∀ t ∈ arrived, t ∈ ps') →
      (∀ i < fs.length, i ∈ done ∨ ∃ t ∈ arrived, ps'[i]? = some t) → file.length = fs.flatten.length →
      (∀ i ∈ done, ∃ hi : i < fs.length, ∀ k, (fs.take i).flatten.length ≤ k → k < (fs.take i).flatten.length + fs[i].length → file[k]? = fs.flatten[k]?) →
      assemble lib env isRaw file arrived = .ret fs.flatten := by
    intro arrived
    induction arrived with
    | nil =>
      intro done file _ hall hlen hdone
      rw [assemble]
      congr 1
      apply List.ext_getElem?
      intro k
      rcases Nat.lt_or_ge k fs.flatten.length with hk | hk
      · obtain ⟨i, hi, c1, c2⟩ := flatten_covered fs k hk
        rcases hall i hi with hd | ⟨t, ht, _⟩
        · obtain ⟨_, hd⟩ := hdone i hd
          exact hd k c1 c2
        · simp at ht
      · rw [List.getElem?_eq_none (by omega), List.getElem?_eq_none hk]
    | cons t ts ih =>
      intro done file hmem hall hlen hdone
      obtain ⟨j, hj, hjt⟩ := List.mem_iff_getElem.1 (hmem t (by simp))
      have hj' : j < fs.length := by omega
      obtain ⟨post, p, _, _, e1, e2, -, -, e3, -, -, -, -, e0, -, -, -, -, e4, -⟩ := a3 j hj'
      rw [List.getElem?_eq_getElem hj] at e1
      simp only [Option.some.injEq] at e1
      have ept : t = post := hjt.symm.trans e1
      have hcut := flatten_cut fs j hj'
      have hfit : (fs.take j).flatten.length + fs[j].length ≤ file.length := by
        rw [hlen, hcut]; simp only [List.length_append]; omega
      rw [assemble, ept, e2]
      simp only [Outcome.bind, e3, e4, decimal_lit, Nat.add_sub_cancel]
      have hget := writeAt_get file (fs.take j).flatten.length fs[j] hfit
      refine ih (j :: done) _ (fun u hu => hmem u (by simp [hu])) ?_ ?_ ?_
      · intro i hi
        rcases hall i hi with hd | ⟨u, hu, hiu⟩
        · exact .inl (by simp [hd])
        · rcases List.mem_cons.1 hu with rfl | hu
          · left
            obtain ⟨post', p', _, _, f1, f2, -, -, -, -, -, -, -, f3, -⟩ := a3 i hi
            rw [hiu] at f1
            simp only [Option.some.injEq] at f1
            rw [← f1, ept, e2] at f2
            simp only [Outcome.ret.injEq, FromPost.ok.injEq] at f2
            subst f2
            rw [e0] at f3
            simp only [Option.some.injEq] at f3
            have := congrArg decimal f3
            rw [decimal_lit, decimal_lit] at this
            have : i = j := by omega
            simp [this]
          · exact .inr ⟨u, hu, hiu⟩
      · unfold writeAt
        simp only [List.length_append, List.length_take, List.length_drop]; omega
      · intro i hi
        rcases List.mem_cons.1 hi with rfl | hd
        · refine ⟨hj', fun k c1 c2 => ?_⟩
          rw [hget, if_pos ⟨c1, c2⟩, hcut, List.getElem?_append_left (by rw [List.length_append]; omega), List.getElem?_append_right c1]
        · obtain ⟨hi', hd⟩ := hdone i hd
          refine ⟨hi', fun k c1 c2 => ?_⟩
          rw [hget]
          by_cases hc : (fs.take j).flatten.length ≤ k ∧ k < (fs.take j).flatten.length + fs[j].length
          · rw [if_pos hc, hcut, List.getElem?_append_left (by rw [List.length_append]; omega), List.getElem?_append_right hc.1]
          · rw [if_neg hc]; exact hd k c1 c2
  refine key arrived [] file (fun t ht => (ha t).1 ht) (fun i hi => .inr ?_) hf (by simp)
  have hi' : i < ps'.length := by omega
  exact ⟨ps'[i], (ha _).2 (List.getElem_mem hi'), List.getElem?_eq_getElem hi'⟩

-- both parts, the last one first, and both again
example : ∃ ps, (feedParts genericLib (lit "my file.bin") 128 [[1#8], [2#8, 3#8]]).2 = ps.map .ret ∧
    assemble genericLib natEnv false [0#8, 0#8, 0#8] (ps.reverse ++ ps) = .ret [1#8, 2#8, 3#8] := by
  have hn : SafeName (lit "my file.bin") := ⟨by decide, by decide, by decide, by decide⟩
  obtain ⟨ps, a1, _⟩ := C45_parts genericLib_isLib natEnv_lawful _ hn 128 (by decide) (by decide) [[1#8], [2#8, 3#8]] (by decide) (by decide) (by decide) false
  exact ⟨ps, a1, C82_any_order genericLib_isLib natEnv_lawful _ hn 128 (by decide) (by decide) [[1#8], [2#8, 3#8]] (by decide) (by decide) (by decide) false ps a1 _
    (by simp) _ (by decide)⟩

end Yenc.Props
