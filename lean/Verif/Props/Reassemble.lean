import Verif.Props.Interop
import Verif.Props.Assemble
/-!
Property C105: a file put together from posts of any origin.
-/
namespace Yenc.Props
open Spec Yenc.Js

variable {lib : Lib} {env : Env}

/-- `text` is read by `from_post` as the `len` bytes of `file` from offset `pos`. -/
def Carries (lib : Lib) (env : Env) (isRaw : Bool) (file : List Byte) (pos len : Nat) (text : List Byte) : Prop :=
  pos + len ≤ file.length ∧ ∃ p, fromPost lib env text isRaw = .ret (.ok p) ∧ p.data = some ((file.drop pos).take len) ∧ field p "part" "begin" = some (lit (toString (pos + 1)))

/-- C105: whatever posts arrive, made by whatever encoders, cut at whatever places (the ranges may overlap), in whatever order: the bytes in the ranges that arrived are those of the file, the others are left
as they were. -/
theorem C105_assembled (isRaw : Bool) (file : List Byte) (arrived : List (Nat × Nat × List Byte)) (ha : ∀ a ∈ arrived, Carries lib env isRaw file a.1 a.2.1 a.2.2)
    (buf : List Byte) (hb : buf.length = file.length) :
    ∃ out, assemble lib env isRaw buf (arrived.map (·.2.2)) = .ret out ∧ out.length = file.length ∧
      ∀ k, ((∃ a ∈ arrived, a.1 ≤ k ∧ k < a.1 + a.2.1) → out[k]? = file[k]?) ∧ ((¬ ∃ a ∈ arrived, a.1 ≤ k ∧ k < a.1 + a.2.1) → out[k]? = buf[k]?) := by
  induction arrived generalizing buf with
  | nil => exact ⟨buf, rfl, hb, fun k => ⟨fun ⟨_, h, _⟩ => absurd h (by simp), fun _ => rfl⟩⟩
  | cons a as ih =>
    obtain ⟨pos, len, t⟩ := a
    obtain ⟨h1, p, h2, h3, h4⟩ := ha _ (by simp : (pos, len, t) ∈ _)
    simp only at h1 h2 h3 h4
    have hl : ((file.drop pos).take len).length = len := by rw [List.length_take, List.length_drop]; omega
    have hget := writeAt_get buf pos ((file.drop pos).take len) (by rw [hl]; omega)
    rw [hl] at hget
    obtain ⟨out, e1, e2, e3⟩ := ih (fun a h => ha a (by simp [h])) (writeAt buf pos ((file.drop pos).take len)) (by
      unfold writeAt
      simp only [List.length_append, List.length_take, List.length_drop]; omega)
    refine ⟨out, ?_, e2, fun k => ?_⟩
    · simp only [List.map_cons, assemble, h2, Outcome.bind, h3, h4, decimal_lit, Nat.add_sub_cancel]
      exact e1
    · by_cases hk : ∃ a ∈ as, a.1 ≤ k ∧ k < a.1 + a.2.1
      · refine ⟨fun _ => (e3 k).1 hk, fun hn => absurd ?_ hn⟩
        obtain ⟨a, h5, h6⟩ := hk
        exact ⟨a, by simp [h5], h6⟩
      · have e4 := (e3 k).2 hk
        rw [hget] at e4
        constructor
        · rintro ⟨a, h5, h6, h7⟩
          rcases List.mem_cons.1 h5 with rfl | h5
          · simp only at h6 h7
            rw [e4, if_pos ⟨h6, h7⟩, List.getElem?_take_of_lt (by omega), List.getElem?_drop]
            congr 1; omega
          · exact absurd ⟨a, h5, h6, h7⟩ hk
        · intro hn
          rw [e4, if_neg]
          intro hc
          exact hn ⟨_, List.mem_cons_self, hc⟩

/-- C105: as soon as the ranges cover the file, the file is complete. -/
theorem C105_complete (isRaw : Bool) (file : List Byte) (arrived : List (Nat × Nat × List Byte)) (ha : ∀ a ∈ arrived, Carries lib env isRaw file a.1 a.2.1 a.2.2)
    (hc : ∀ k < file.length, ∃ a ∈ arrived, a.1 ≤ k ∧ k < a.1 + a.2.1) (buf : List Byte) (hb : buf.length = file.length) :
    assemble lib env isRaw buf (arrived.map (·.2.2)) = .ret file := by
  obtain ⟨out, e1, e2, e3⟩ := C105_assembled isRaw file arrived ha buf hb
  rw [e1]
  congr 1
  apply List.ext_getElem?
  intro k
  rcases Nat.lt_or_ge k file.length with hk | hk
  · exact (e3 k).1 (hc k hk)
  · rw [List.getElem?_eq_none (by omega), List.getElem?_eq_none hk]

/-- An article with a post that holds `len` bytes of `file` from offset `pos`, by an encoder that may have escaped more than necessary and broken the lines anywhere. The numbers of parts, the line
length, the checksum of the whole file and the text around the post may be anything. -/
structure PartArticle (file : List Byte) (pos len : Nat) (article : List Byte) : Prop where
  range : 1 ≤ len ∧ pos + len ≤ file.length
  made : ∃ (name : Str) (part total ls : Nat) (t : List Byte) (pcrc : BitVec 32) (crc : Option (BitVec 32)) (pre suf : List Byte), SafeName name ∧ 1 ≤ ls ∧ 1 ≤ part ∧ part ≤ total ∧ total ≤ 2 ^ 53 ∧
    Encoding ((file.drop pos).take len) t ∧ ¬ [EQ, LY] <+: t ∧ IsCrc32 0 ((file.drop pos).take len) pcrc ∧ (pre = [] ∨ text "\r\n" <:+ pre) ∧ ¬ text "=ybegin " <+: pre ∧ ¬ text "\r\n=ybegin " <:+: pre ∧
    ¬ text "\r\n=yend " <:+: text "\r\n" ++ suf ∧ article = pre ++ partPost part total ls file.length (utf8Encode name) pos len t pcrc crc ++ text "\r\n" ++ suf

/-- C105: such an article is read as that range of the file, as it is or with its dots doubled. -/
theorem C105_article (h : lib.IsLib) (hl : env.Lawful) (file : List Byte) (hs : file.length ≤ 2 ^ 53) (pos len : Nat) (article : List Byte) (ha : PartArticle file pos len article) :
    Carries lib env false file pos len article ∧ Carries lib env true file pos len (stuff article) := by
  obtain ⟨⟨r1, r2⟩, name, part, total, ls, t, pcrc, crc, pre, suf, hn, m1, m2, m3, m4, m5, m6, m7, m8, m9, m10, m11, rfl⟩ := ha
  have hlen : ((file.drop pos).take len).length = len := by rw [List.length_take, List.length_drop]; omega
  have := C101_article_part h hl name hn part total ls file.length pos m1 m2 m3 m4 hs _ t (List.ne_nil_of_length_pos (by omega)) (by omega) m5 m6 pcrc m7 crc pre suf m8 m9 m10 m11
  rw [hlen] at this
  obtain ⟨⟨p, e1, e2, -, -, -, e3, -⟩, p', f1, f2, -, -, -, f3, -⟩ := this
  exact ⟨⟨r2, p, e1, e2, e3⟩, r2, p', f1, f2, f3⟩

/-- C105: articles by any encoders, in any order, as they come from the server (dots doubled): once they cover the file, the caller has the file. -/
theorem C105_download (h : lib.IsLib) (hl : env.Lawful) (file : List Byte) (hs : file.length ≤ 2 ^ 53) (arrived : List (Nat × Nat × List Byte))
    (ha : ∀ a ∈ arrived, PartArticle file a.1 a.2.1 a.2.2) (hc : ∀ k < file.length, ∃ a ∈ arrived, a.1 ≤ k ∧ k < a.1 + a.2.1) (buf : List Byte) (hb : buf.length = file.length) :
    assemble lib env true buf (arrived.map fun a => stuff a.2.2) = .ret file := by
  have := C105_complete (lib := lib) (env := env) true file (arrived.map fun a => (a.1, a.2.1, stuff a.2.2)) (by
    intro a h1
    obtain ⟨b, h2, rfl⟩ := List.mem_map.1 h1
    exact (C105_article h hl file hs _ _ _ (ha b h2)).2) (by
    intro k hk
    obtain ⟨a, h1, h2⟩ := hc k hk
    exact ⟨_, List.mem_map.2 ⟨a, h1, rfl⟩, h2⟩) buf hb
  rwa [List.map_map] at this

/-- Non-vacuity: the second and third byte of a file, with the dot at the start of the line doubled on the way, and text around the post. -/
example : PartArticle [65#8, 4#8, 65#8] 1 2 (text "x\r\n=ybegin part=2 total=7 line=5 size=3 name=n\r\n=ypart begin=2 end=3\r\n." ++ [107#8, LF] ++ text "\r\n=yend size=2 part=2 pcrc32=246ea6fd\r\n.\r\n") := by
  refine ⟨by decide, lit "n", 2, 7, 5, text ".k\n", Crc.crc1 0 [4#8, 65#8], none, text "x\r\n", text ".\r\n", ⟨by decide, by decide, by decide, by decide⟩, by decide, by decide, by decide, by decide,
    .chr 4#8 (by unfold Critical; decide) (.chr 65#8 (by unfold Critical; decide) (.lf .nil)), by decide, Crc.isCrc32_iff_eq.2 rfl, by decide, by decide, by decide, by decide, by decide +kernel⟩

end Yenc.Props
