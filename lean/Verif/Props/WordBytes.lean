import Verif.Model.Words
import Verif.Lemmas.Utf8Decode

/-!
# C216–C220: UPPER and LOWER of BYTES, STARTS_WITH and ENDS_WITH, ASCII, lengths, SAFE_CONVERT_BYTES_TO_STRING
-/

namespace Verif.Words

open Go Verif.Val

/-! ### SAFE_CONVERT_BYTES_TO_STRING -/

/-- `s` is the text of the bytes `b`: every character that is encoded there, and U+FFFD for each byte with which no
encoding of a character starts. -/
inductive IsText : List UInt8 → List Char → Prop
  | nil : IsText [] []
  | char (c : Char) (b : List UInt8) (s : List Char) : IsText b s → IsText (String.utf8EncodeChar c ++ b) (c :: s)
  | bad (x : UInt8) (b : List UInt8) (s : List Char) :
      (∀ c, ¬ String.utf8EncodeChar c <+: x :: b) → IsText b s → IsText (x :: b) (Char.ofNat 0xFFFD :: s)

theorem ofNat_toNat {n : Nat} (h : n < 128) : (Char.ofNat n).toNat = n := by
  unfold Char.ofNat
  rw [dif_pos (Or.inl (by omega))]
  rfl

theorem runeChar_toNat (c : Char) : Strings.runeChar (c.toNat : Nat) = c := by
  have hv : c.toNat < 55296 ∨ 57343 < c.toNat ∧ c.toNat < 1114112 := c.valid
  unfold Strings.runeChar
  have hr : (((c.toNat : Nat) : Int) + 2147483648) % 4294967296 - 2147483648 = (c.toNat : Nat) := by omega
  simp only [hr]
  rw [dif_pos ⟨by omega, by simpa using hv⟩]
  simp only [Int.toNat_natCast]
  rfl

theorem runes_isText : ∀ (n : Nat) (b : List UInt8), b.length ≤ n →
    IsText b ((Strings.runes n b).map fun r : Nat => Strings.runeChar r) := by
  intro n
  induction n with
  | zero => intro b hb; cases b with
    | nil => exact .nil
    | cons _ _ => simp at hb
  | succ n ih =>
    intro b hb
    cases b with
    | nil => exact .nil
    | cons x b =>
      show IsText (x :: b) (Strings.runeChar ((Strings.decodeRune (x :: b)).1 : Nat) ::
        (Strings.runes n ((x :: b).drop (Strings.decodeRune (x :: b)).2)).map fun r : Nat => Strings.runeChar r)
      by_cases h : ∃ c rest, x :: b = String.utf8EncodeChar c ++ rest
      · obtain ⟨c, rest, h⟩ := h
        rw [h, Codec.decodeRune_encode]
        simp only [List.drop_left, runeChar_toNat]
        refine .char c rest _ (ih rest ?_)
        have h1 := Codec.encodeChar_pos c
        have h2 := congrArg List.length h
        simp only [List.length_cons, List.length_append] at h2 hb
        omega
      · rcases decodeRune_cases x b with h' | h'
        · exact absurd h' h
        · rw [h']
          refine .bad x b _ ?_ (ih b (by simpa using hb))
          rintro c ⟨rest, hr⟩
          exact h ⟨c, rest, hr.symm⟩

theorem isText_unique {b : List UInt8} {s t : List Char} (hs : IsText b s) (ht : IsText b t) : s = t := by
  induction hs generalizing t with
  | nil =>
    generalize hb : ([] : List UInt8) = b at ht
    cases ht with
    | nil => rfl
    | char c b s _ =>
      have h1 := Codec.encodeChar_pos c
      have h2 := congrArg List.length hb
      simp only [List.length_append, List.length_nil] at h2
      omega
    | bad => cases hb
  | char c b s _ ih =>
    generalize hb : String.utf8EncodeChar c ++ b = b' at ht
    cases ht with
    | nil =>
      have h1 := Codec.encodeChar_pos c
      have h2 := congrArg List.length hb
      simp only [List.length_append, List.length_nil] at h2
      omega
    | char d b' s' h =>
      obtain ⟨rfl, rfl⟩ := enc_prefix_free hb
      rw [ih h]
    | bad x b' s' hbad h => exact absurd ⟨b, hb⟩ (hbad c)
  | bad x b s hbad _ ih =>
    generalize hb : x :: b = b' at ht
    cases ht with
    | nil => cases hb
    | char d b' s' h => exact absurd ⟨b', hb.symm⟩ (hbad d)
    | bad x b' s' _ h =>
      cases hb
      rw [ih h]

theorem safeConvert_isText (b : List UInt8) : IsText b (safeConvert b) := runes_isText _ b (Nat.le_refl _)

theorem isText_utf8 (s : List Char) : IsText (utf8 s) s := by
  induction s with
  | nil => exact .nil
  | cons c s ih => rw [utf8_cons]; exact .char c _ _ ih

/-- **C220.** SAFE_CONVERT_BYTES_TO_STRING gives the text of the bytes, nothing else, and of the UTF-8 bytes of a STRING that STRING. -/
theorem C220 (b : List UInt8) :
    (∀ s, safeConvert b = s ↔ IsText b s) ∧ (∀ s, safeConvert (utf8 s) = s) := by
  refine ⟨fun s => ⟨?_, fun h => isText_unique (safeConvert_isText b) h⟩, fun s => isText_unique (safeConvert_isText _) (isText_utf8 s)⟩
  rintro rfl
  exact safeConvert_isText b

/-- `é`, then a byte that starts nothing. -/
example : safeConvert [0xC3, 0xA9, 0xFF, 0x41] = ['é', Char.ofNat 0xFFFD, 'A'] := by decide +kernel

/-! ### UPPER and LOWER of BYTES -/

/-- A byte in upper case: only the ASCII letters change. -/
def upByte (x : UInt8) : UInt8 := if 97 ≤ x ∧ x ≤ 122 then x - 32 else x

/-- A byte in lower case. -/
def lowByte (x : UInt8) : UInt8 := if 65 ≤ x ∧ x ≤ 90 then x + 32 else x

/-- UPPER and LOWER of BYTES change only the ASCII letters, byte by byte. -/
def C216_full : Prop := ∀ (up low : Char → Char),
  (∀ c, c.toNat < 128 → up c = c.toUpper) → (∀ c, c.toNat < 128 → low c = c.toLower) → ∀ b,
    mapCase up (.bytes b) = .ok (.bytes (b.map upByte)) ∧ mapCase low (.bytes b) = .ok (.bytes (b.map lowByte))

/-- The case table `f` does to ASCII characters what `m` does to their bytes; `m` leaves the other bytes alone. -/
structure Table (f : Char → Char) (m : UInt8 → UInt8) : Prop where
  small : ∀ x, x < 128 → m x < 128
  ascii : ∀ x, x < 128 → f (Char.ofNat x.toNat) = Char.ofNat (m x).toNat
  rest : ∀ x, 128 ≤ x → m x = x

theorem table_up {up : Char → Char} (h : ∀ c, c.toNat < 128 → up c = c.toUpper) : Table up upByte := by
  have key : ∀ n : Fin 128, upByte (UInt8.ofNat n) < 128 ∧ (Char.ofNat n).toUpper = Char.ofNat (upByte (UInt8.ofNat n)).toNat := by
    decide +kernel
  refine ⟨fun x hx => ?_, fun x hx => ?_, fun x hx => ?_⟩
  · have := (key ⟨x.toNat, UInt8.lt_iff_toNat_lt.mp hx⟩).1
    simpa using this
  · have hx' := UInt8.lt_iff_toNat_lt.mp hx
    have := (key ⟨x.toNat, hx'⟩).2
    rw [h]
    · simpa using this
    · have hx'' : x.toNat < 128 := hx'
      rw [ofNat_toNat hx'']
      exact hx''
  · unfold upByte
    rw [if_neg]
    rintro ⟨_, h2⟩
    have h1 := UInt8.le_iff_toNat_le.mp hx
    have h2 := UInt8.le_iff_toNat_le.mp h2
    simp at h1 h2
    omega

theorem table_low {low : Char → Char} (h : ∀ c, c.toNat < 128 → low c = c.toLower) : Table low lowByte := by
  have key : ∀ n : Fin 128, lowByte (UInt8.ofNat n) < 128 ∧ (Char.ofNat n).toLower = Char.ofNat (lowByte (UInt8.ofNat n)).toNat := by
    decide +kernel
  refine ⟨fun x hx => ?_, fun x hx => ?_, fun x hx => ?_⟩
  · have := (key ⟨x.toNat, UInt8.lt_iff_toNat_lt.mp hx⟩).1
    simpa using this
  · have hx' := UInt8.lt_iff_toNat_lt.mp hx
    have := (key ⟨x.toNat, hx'⟩).2
    rw [h]
    · simpa using this
    · have hx'' : x.toNat < 128 := hx'
      rw [ofNat_toNat hx'']
      exact hx''
  · unfold lowByte
    rw [if_neg]
    rintro ⟨_, h2⟩
    have h1 := UInt8.le_iff_toNat_le.mp hx
    have h2 := UInt8.le_iff_toNat_le.mp h2
    simp at h1 h2
    omega

theorem enc_ascii {c : Char} (h : c.toNat < 128) : String.utf8EncodeChar c = [UInt8.ofNat c.toNat] := by
  have : c.val.toNat ≤ 127 := by have : c.val.toNat < 128 := h; omega
  simp only [String.utf8EncodeChar, if_pos this]
  rfl

theorem enc_not_ascii {c : Char} (h : ¬ c.toNat < 128) : ∀ x ∈ String.utf8EncodeChar c, 128 ≤ x := by
  have hc := char_toNat_lt c
  have h' : ¬ c.val.toNat ≤ 127 := by have : ¬ c.val.toNat < 128 := h; omega
  intro x hx
  rw [UInt8.le_iff_toNat_le]
  simp only [String.utf8EncodeChar, if_neg h'] at hx
  generalize c.val.toNat = n at *
  show 128 ≤ x.toNat
  split at hx
  · simp only [List.mem_cons, List.not_mem_nil, or_false] at hx
    rcases hx with rfl | rfl <;> rw [UInt8.toNat_ofNat'] <;> omega
  · split at hx
    · simp only [List.mem_cons, List.not_mem_nil, or_false] at hx
      rcases hx with rfl | rfl | rfl <;> rw [UInt8.toNat_ofNat'] <;> omega
    · simp only [List.mem_cons, List.not_mem_nil, or_false] at hx
      rcases hx with rfl | rfl | rfl | rfl <;> rw [UInt8.toNat_ofNat'] <;> omega

theorem table_char {f m} (T : Table f m) {c : Char} (h : c.toNat < 128) :
    String.utf8EncodeChar (f c) = (String.utf8EncodeChar c).map m := by
  have hx : UInt8.ofNat c.toNat < 128 := by
    rw [UInt8.lt_iff_toNat_lt, UInt8.toNat_ofNat']
    show c.toNat % 256 < 128
    omega
  have hn : (UInt8.ofNat c.toNat).toNat = c.toNat := by rw [UInt8.toNat_ofNat']; omega
  have h2 := T.ascii _ hx
  rw [hn, Char.ofNat_toNat] at h2
  have h3 : (m (UInt8.ofNat c.toNat)).toNat < 128 := UInt8.lt_iff_toNat_lt.mp (T.small _ hx)
  have h4 : (Char.ofNat (m (UInt8.ofNat c.toNat)).toNat).toNat = (m (UInt8.ofNat c.toNat)).toNat := by
    rw [ofNat_toNat (by omega)]
  rw [h2, enc_ascii h, enc_ascii (by rw [h4]; exact h3), h4]
  simp

theorem map_rest {f m} (T : Table f m) {c : Char} (h : ¬ c.toNat < 128) :
    (String.utf8EncodeChar c).map m = String.utf8EncodeChar c := by
  conv => rhs; rw [← List.map_id (String.utf8EncodeChar c)]
  exact List.map_congr_left fun x hx => T.rest x (enc_not_ascii h x hx)

/-- Mapping bytes does not make a character out of bytes that are none. -/
theorem map_bad {f m} (T : Table f m) {x : UInt8} {b : List UInt8} (hbad : ∀ c, ¬ String.utf8EncodeChar c <+: x :: b)
    (d : Char) (y : List UInt8) : String.utf8EncodeChar d ++ y ≠ (x :: b).map m := by
  intro h
  have hx : 128 ≤ x := by
    apply Classical.byContradiction
    intro hx
    have hx' : x.toNat < 128 := by
      have := mt UInt8.le_iff_toNat_le.mpr hx
      show x.toNat < 128
      have h128 : (128 : UInt8).toNat = 128 := rfl
      omega
    apply hbad (Char.ofNat x.toNat)
    have h4 : (Char.ofNat x.toNat).toNat = x.toNat := by rw [ofNat_toNat (by omega)]
    rw [enc_ascii (by rw [h4]; exact hx'), h4, UInt8.ofNat_toNat]
    exact ⟨b, rfl⟩
  by_cases hd : d.toNat < 128
  · rw [enc_ascii hd, List.map_cons, T.rest x hx] at h
    have h1 := (List.cons.inj h).1
    rw [← h1, UInt8.le_iff_toNat_le, UInt8.toNat_ofNat'] at hx
    have : (128 : UInt8).toNat = 128 := rfl
    omega
  · apply hbad d
    refine ⟨(x :: b).drop (String.utf8EncodeChar d).length, ?_⟩
    have h1 : String.utf8EncodeChar d = ((x :: b).take (String.utf8EncodeChar d).length).map m := by
      rw [List.map_take, ← h, List.take_left]
    have h2 : ((x :: b).take (String.utf8EncodeChar d).length).map m = (x :: b).take (String.utf8EncodeChar d).length := by
      conv => rhs; rw [← List.map_id (List.take _ _)]
      refine List.map_congr_left fun z hz => ?_
      apply T.rest
      apply Classical.byContradiction
      intro hz'
      have hz'' : z < 128 := by
        rw [UInt8.lt_iff_toNat_lt]
        have := mt UInt8.le_iff_toNat_le.mpr hz'
        omega
      have h3 := enc_not_ascii hd (m z) (by rw [h1]; exact List.mem_map_of_mem hz)
      have h4 := T.small z hz''
      rw [UInt8.le_iff_toNat_le] at h3
      rw [UInt8.lt_iff_toNat_lt] at h4
      omega
    conv => lhs; lhs; rw [h1, h2]
    exact List.take_append_drop _ _

theorem mapBytes_text {f m} (T : Table f m) (b : List UInt8) : mapBytes f b = utf8 ((safeConvert b).map f) := by
  unfold mapBytes
  split
  · rename_i h
    have hb : ∀ x ∈ b, x < 128 := by simpa using h
    have hs : b = utf8 (b.map fun x => Char.ofNat x.toNat) := by
      clear h
      induction b with
      | nil => rfl
      | cons x b ih =>
        have hx' : x.toNat < 128 := UInt8.lt_iff_toNat_lt.mp (hb x List.mem_cons_self)
        have h4 : (Char.ofNat x.toNat).toNat = x.toNat := by rw [ofNat_toNat (by omega)]
        rw [List.map_cons, utf8_cons, enc_ascii (by rw [h4]; exact hx'), h4, UInt8.ofNat_toNat,
          ← ih fun y hy => hb y (List.mem_cons_of_mem _ hy)]
        rfl
    have h2 : safeConvert b = b.map fun x => Char.ofNat x.toNat := by
      conv => lhs; rw [hs]
      exact (C220 b).2 _
    rw [h2]
    clear h h2 hs
    induction b with
    | nil => rfl
    | cons x b ih =>
      have hx := hb x List.mem_cons_self
      have h3 : (m x).toNat < 128 := UInt8.lt_iff_toNat_lt.mp (T.small x hx)
      have h4 : (Char.ofNat (m x).toNat).toNat = (m x).toNat := by rw [ofNat_toNat (by omega)]
      simp only [List.map_cons, utf8_cons]
      rw [T.ascii x hx, enc_ascii (by rw [h4]; exact h3), h4, ih fun y hy => hb y (List.mem_cons_of_mem _ hy)]
      rfl
  · unfold safeConvert
    rw [List.map_map]
    rfl

theorem map_iff {f m} (T : Table f m) {b : List UInt8} {s : List Char} (h : IsText b s) :
    utf8 (s.map f) = b.map m ↔ b = utf8 s ∧ ∀ c ∈ s, 128 ≤ c.toNat → f c = c := by
  induction h with
  | nil => simp
  | char c b s h ih =>
    rw [List.map_cons, utf8_cons, List.map_append, utf8_cons]
    by_cases hc : c.toNat < 128
    · rw [← table_char T hc, List.append_right_inj, List.append_right_inj, ih]
      constructor
      · rintro ⟨h1, h2⟩
        refine ⟨h1, fun d hd hd' => ?_⟩
        rcases List.mem_cons.mp hd with rfl | hd
        · omega
        · exact h2 d hd hd'
      · exact fun ⟨h1, h2⟩ => ⟨h1, fun d hd => h2 d (List.mem_cons_of_mem _ hd)⟩
    · rw [map_rest T hc]
      constructor
      · intro h'
        obtain ⟨h1, h2⟩ := enc_prefix_free h'
        obtain ⟨h3, h4⟩ := ih.mp h2
        refine ⟨by rw [← h3], fun d hd hd' => ?_⟩
        rcases List.mem_cons.mp hd with rfl | hd
        · exact h1
        · exact h4 d hd hd'
      · rintro ⟨h1, h2⟩
        rw [h2 c List.mem_cons_self (by omega), ih.mpr ⟨List.append_cancel_left h1, fun d hd => h2 d (List.mem_cons_of_mem _ hd)⟩]
  | bad x b s hbad h ih =>
    rw [List.map_cons, utf8_cons, utf8_cons]
    constructor
    · intro h'
      exact absurd h' (map_bad T hbad _ _)
    · rintro ⟨h1, _⟩
      exact absurd ⟨_, h1.symm⟩ (hbad _)

/-- **C216**, the part that holds: right exactly for the bytes of a text whose characters outside ASCII have no other
case; NULL for NULL. -/
theorem C216_partial (up low : Char → Char) (hu : ∀ c, c.toNat < 128 → up c = c.toUpper)
    (hl : ∀ c, c.toNat < 128 → low c = c.toLower) :
    (∀ b, mapCase up (.bytes b) = .ok (.bytes (b.map upByte)) ↔ ∃ s, b = utf8 s ∧ ∀ c ∈ s, 128 ≤ c.toNat → up c = c) ∧
    (∀ b, mapCase low (.bytes b) = .ok (.bytes (b.map lowByte)) ↔ ∃ s, b = utf8 s ∧ ∀ c ∈ s, 128 ≤ c.toNat → low c = c) ∧
    mapCase up .null = .ok .null ∧ mapCase low .null = .ok .null := by
  have key : ∀ {f m}, Table f m → ∀ b, mapCase f (.bytes b) = .ok (.bytes (b.map m)) ↔
      ∃ s, b = utf8 s ∧ ∀ c ∈ s, 128 ≤ c.toNat → f c = c := by
    intro f m T b
    simp only [mapCase, Res.ok.injEq, Val.bytes.injEq]
    rw [mapBytes_text T, map_iff T (safeConvert_isText b)]
    constructor
    · exact fun h => ⟨_, h⟩
    · rintro ⟨s, rfl, h⟩
      rw [(C220 []).2 s]
      exact ⟨rfl, h⟩
  exact ⟨key (table_up hu), key (table_low hl), rfl, rfl⟩

/-- UPPER(b'\xFF') is b'\xEF\xBF\xBD'. -/
theorem C216_full_false : ¬ C216_full := by
  intro h
  have := (h Char.toUpper Char.toLower (fun _ _ => rfl) (fun _ _ => rfl) [0xFF]).1
  revert this
  have : mapCase Char.toUpper (.bytes [0xFF]) = .ok (.bytes [0xEF, 0xBF, 0xBD]) := by
    simp only [mapCase]
    congr 2
  rw [this]
  simp

/-- ASCII bytes meet the condition. -/
example : mapCase Char.toUpper (.bytes [0x61, 0x42, 0x20]) = .ok (.bytes [0x41, 0x42, 0x20]) :=
  ((C216_partial Char.toUpper Char.toLower (fun _ _ => rfl) (fun _ _ => rfl)).1 [0x61, 0x42, 0x20]).mpr
    ⟨['a', 'B', ' '], by decide +kernel, by decide +kernel⟩

/-! ### CONCAT, STARTS_WITH, ENDS_WITH and the lengths -/

theorem concatBytes_strs (ss : List (List Char)) : concatBytes (ss.map Val.str) = .ok (utf8 ss.flatten) := by
  induction ss with
  | nil => rfl
  | cons s ss ih => simp [concatBytes, ih, utf8_append]

theorem concatBytes_bytes (bs : List (List UInt8)) : concatBytes (bs.map Val.bytes) = .ok bs.flatten := by
  induction bs with
  | nil => rfl
  | cons s ss ih => simp [concatBytes, ih]

theorem concat_strs (s : List Char) (ss : List (List Char)) : concat ((s :: ss).map Val.str) = .ok (.str (s :: ss).flatten) := by
  have h : ((s :: ss).map Val.str).any Val.isNull = false := by
    rw [List.any_eq_false]
    simp [Val.isNull]
  have h2 := concatBytes_strs (s :: ss)
  unfold concat
  rw [if_neg (by simp), h, if_neg (by simp), h2]
  simp only [Res.bind'_ok, List.map_cons, (C220 []).2]

theorem concat_bytes (s : List UInt8) (ss : List (List UInt8)) : concat ((s :: ss).map Val.bytes) = .ok (.bytes (s :: ss).flatten) := by
  have h : ((s :: ss).map Val.bytes).any Val.isNull = false := by
    rw [List.any_eq_false]
    simp [Val.isNull]
  have h2 := concatBytes_bytes (s :: ss)
  unfold concat
  rw [if_neg (by simp), h, if_neg (by simp), h2]
  simp only [Res.bind'_ok, List.map_cons]

/-- A suffix of the bytes of a text that is itself the bytes of a text. -/
theorem utf8_suffix {t s : List Char} : utf8 t <:+ utf8 s ↔ t <:+ s := by
  constructor
  · rintro ⟨r, hr⟩
    induction s generalizing r with
    | nil =>
      have : utf8 t = [] := by simpa using (List.append_eq_nil_iff.mp hr).2
      cases t with
      | nil => exact List.suffix_refl _
      | cons c t =>
        have := Codec.encodeChar_pos c
        simp_all [utf8_cons]
    | cons c s ih =>
      cases t with
      | nil => exact List.nil_suffix
      | cons d t =>
      cases r with
      | nil =>
        have := utf8_injective (s := d :: t) (t := c :: s) hr
        rw [this]
        exact List.suffix_refl _
      | cons x r =>
        obtain ⟨b, rest, e, _, hcont⟩ := enc_shape c
        obtain ⟨b', rest', e', hb', _⟩ := enc_shape d
        rw [utf8_cons c s, e, List.cons_append, List.cons_append] at hr
        have hr := (List.cons.inj hr).2
        -- the rest of the encoding of `c` lies in `r`
        have hle : rest.length ≤ r.length := by
          apply Classical.byContradiction
          intro hlt
          have h1 : (r ++ utf8 (d :: t))[r.length]? = (rest ++ utf8 s)[r.length]? := by rw [hr]
          rw [List.getElem?_append_right (Nat.le_refl _), List.getElem?_append_left (by omega), utf8_cons, e'] at h1
          simp only [Nat.sub_self, List.cons_append, List.getElem?_cons_zero] at h1
          exact hb' (hcont b' (List.mem_of_getElem? h1.symm))
        have h2 := congrArg (List.drop rest.length) hr
        rw [List.drop_append_of_le_length hle, List.drop_left] at h2
        exact (ih _ h2).trans (List.suffix_cons _ _)
  · rintro ⟨r, rfl⟩
    exact ⟨utf8 r, (utf8_append _ _).symm⟩

/-- **C217.** CONCAT joins texts and bytes; a value starts with `p` if and only if it is the CONCAT of `p` and something,
and ends with `p` if and only if it is the CONCAT of something and `p`; NULL gives NULL. -/
theorem C217 :
    (∀ (s : List Char) (ss : List (List Char)), concat (.str s :: ss.map .str) = .ok (.str (s ++ ss.flatten))) ∧
    (∀ (b : List UInt8) (bs : List (List UInt8)), concat (.bytes b :: bs.map .bytes) = .ok (.bytes (b ++ bs.flatten))) ∧
    (∀ vs, .null ∈ vs → concat vs = .ok .null) ∧
    (∀ v p : List Char, ∃ x y, startsWith (.str v) (.str p) = .ok (.bool x) ∧ endsWith (.str v) (.str p) = .ok (.bool y) ∧
      (x = true ↔ ∃ r, concat [.str p, .str r] = .ok (.str v)) ∧ (y = true ↔ ∃ r, concat [.str r, .str p] = .ok (.str v))) ∧
    (∀ v p : List UInt8, ∃ x y, startsWith (.bytes v) (.bytes p) = .ok (.bool x) ∧ endsWith (.bytes v) (.bytes p) = .ok (.bool y) ∧
      (x = true ↔ ∃ r, concat [.bytes p, .bytes r] = .ok (.bytes v)) ∧
      (y = true ↔ ∃ r, concat [.bytes r, .bytes p] = .ok (.bytes v))) ∧
    (∀ v, startsWith .null v = .ok .null ∧ startsWith v .null = .ok .null ∧
      endsWith .null v = .ok .null ∧ endsWith v .null = .ok .null) := by
  refine ⟨fun s ss => ?_, fun b bs => ?_, fun vs h => ?_, fun v p => ?_, fun v p => ?_, fun v => ?_⟩
  · simpa using concat_strs s ss
  · simpa using concat_bytes b bs
  · unfold concat
    rw [if_neg (by rintro rfl; simp at h), if_pos]
    rw [List.any_eq_true]
    exact ⟨_, h, rfl⟩
  · refine ⟨_, _, rfl, rfl, ?_, ?_⟩
    · rw [List.isPrefixOf_iff_prefix, utf8_prefix]
      have h : ∀ r, concat [.str p, .str r] = .ok (.str (p ++ r)) := fun r => by simpa using concat_strs p [r]
      simp only [h, Res.ok.injEq, Val.str.injEq]
      rfl
    · rw [List.isSuffixOf_iff_suffix, utf8_suffix]
      have h : ∀ r, concat [.str r, .str p] = .ok (.str (r ++ p)) := fun r => by simpa using concat_strs r [p]
      simp only [h, Res.ok.injEq, Val.str.injEq]
      rfl
  · refine ⟨_, _, rfl, rfl, ?_, ?_⟩
    · rw [List.isPrefixOf_iff_prefix]
      have h : ∀ r, concat [.bytes p, .bytes r] = .ok (.bytes (p ++ r)) := fun r => by simpa using concat_bytes p [r]
      simp only [h, Res.ok.injEq, Val.bytes.injEq]
      rfl
    · rw [List.isSuffixOf_iff_suffix]
      have h : ∀ r, concat [.bytes r, .bytes p] = .ok (.bytes (r ++ p)) := fun r => by simpa using concat_bytes r [p]
      simp only [h, Res.ok.injEq, Val.bytes.injEq]
      rfl
  · cases v <;> exact ⟨rfl, rfl, rfl, rfl⟩

/-- 'é' does not start with 'e'; 'né' ends with 'é'. -/
example : startsWith (.str ['é']) (.str ['e']) = .ok (.bool false) ∧ endsWith (.str ['n', 'é']) (.str ['é']) = .ok (.bool true) := by
  constructor <;> simp only [startsWith, endsWith] <;> congr 2

theorem enc_le (c : Char) : (String.utf8EncodeChar c).length ≤ 4 := by
  simp only [String.utf8EncodeChar]
  split
  · simp
  · split
    · simp
    · split <;> simp

/-- **C219.** CHAR_LENGTH and LENGTH of a STRING are its number of characters; BYTE_LENGTH is one to four times as much and
adds up under CONCAT, as CHAR_LENGTH does; of BYTES, LENGTH and BYTE_LENGTH are the number of bytes; NULL for NULL. -/
theorem C219 :
    (∀ s, charLength (.str s) = .ok (.int s.length) ∧ Strings.length (.str s) = charLength (.str s)) ∧
    (∀ b, byteLength (.bytes b) = .ok (.int b.length) ∧ Strings.length (.bytes b) = byteLength (.bytes b)) ∧
    (∀ s, ∃ n : Nat, byteLength (.str s) = .ok (.int n) ∧ s.length ≤ n ∧ n ≤ 4 * s.length ∧
      ((∀ c ∈ s, c.toNat < 128) ↔ n = s.length)) ∧
    (∀ s t u, concat [.str s, .str t] = .ok u → ∃ a b c, byteLength (.str s) = .ok (.int a) ∧ byteLength (.str t) = .ok (.int b) ∧
      byteLength u = .ok (.int c) ∧ c = a + b ∧ ∃ d, charLength u = .ok (.int d) ∧ d = s.length + t.length) ∧
    byteLength .null = .ok .null ∧ charLength .null = .ok .null := by
  have hchar : ∀ s, charLength (.str s) = .ok (.int s.length) := by
    intro s
    simp only [charLength]
    rw [Codec.runes_utf8 s _ (Codec.utf8_length s), List.length_map]
  refine ⟨fun s => ⟨hchar s, (hchar s).symm⟩, fun b => ⟨rfl, rfl⟩, fun s => ⟨_, rfl, Codec.utf8_length s, ?_, ?_⟩, fun s t u h => ?_, rfl, rfl⟩
  · induction s with
    | nil => simp
    | cons c s ih => have := enc_le c; simp only [utf8_cons, List.length_append, List.length_cons]; omega
  · induction s with
    | nil => simp
    | cons c s ih =>
      have h1 := Codec.encodeChar_pos c
      have h2 := Codec.utf8_length s
      have h3 : c.toNat < 128 ↔ (String.utf8EncodeChar c).length = 1 := by
        constructor
        · intro h; rw [enc_ascii h]; rfl
        · intro h
          apply Classical.byContradiction
          intro hc
          have hc' : ¬ c.val.toNat ≤ 127 := by have : ¬ c.val.toNat < 128 := hc; omega
          simp only [String.utf8EncodeChar, if_neg hc'] at h
          split at h
          · simp at h
          · split at h <;> simp at h
      simp only [utf8_cons, List.length_append, List.length_cons, List.forall_mem_cons]
      rw [h3, ih]
      omega
  · have hc : concat [.str s, .str t] = .ok (.str (s ++ t)) := by simpa using concat_strs s [t]
    rw [hc] at h
    cases h
    refine ⟨_, _, _, rfl, rfl, rfl, ?_, _, hchar _, ?_⟩
    · rw [utf8_append, List.length_append]; rfl
    · rw [List.length_append]; rfl

/-- 'é' is one character of two bytes. -/
example : charLength (.str ['é']) = .ok (.int 1) ∧ byteLength (.str ['é']) = .ok (.int 2) := by
  constructor
  · exact (C219.1 _).1
  · simp only [byteLength]; congr 2

/-! ### ASCII -/

/-- ASCII gives the code of the first character of a STRING and the first byte of BYTES, as far as these are ASCII, 0 for
an empty one. -/
def C218_full : Prop :=
  (∀ (c : Char) s, c.toNat < 128 → asciiOf (.str (c :: s)) = .ok (.int c.toNat)) ∧
  (∀ (x : UInt8) b, x < 128 → asciiOf (.bytes (x :: b)) = .ok (.int x.toNat)) ∧
  asciiOf (.str []) = .ok (.int 0) ∧ asciiOf (.bytes []) = .ok (.int 0)

/-- **C218**, the part that holds: right for every STRING, and never an ASCII code if the first character is none; for
BYTES right only if there are none or the first is a `V`. -/
theorem C218_partial :
    (∀ (c : Char) s, c.toNat < 128 → asciiOf (.str (c :: s)) = .ok (.int c.toNat)) ∧
    (∀ (c : Char) s, ¬ c.toNat < 128 → ∃ n : Nat, asciiOf (.str (c :: s)) = .ok (.int n) ∧ 128 ≤ n) ∧
    asciiOf (.str []) = .ok (.int 0) ∧ asciiOf (.bytes []) = .ok (.int 0) ∧ asciiOf .null = .ok .null ∧
    (∀ (x : UInt8) b, asciiOf (.bytes (x :: b)) = .ok (.int x.toNat) ↔ x = 86) := by
  refine ⟨fun c s h => ?_, fun c s h => ?_, rfl, rfl, rfl, fun x b => ?_⟩
  · simp only [asciiOf, utf8_cons]
    rw [enc_ascii h]
    simp only [List.cons_append, List.nil_append, List.head?_cons, Option.map_some, Option.getD_some]
    rw [UInt8.toNat_ofNat']
    congr 2
    omega
  · simp only [asciiOf, utf8_cons]
    obtain ⟨b, rest, e, _⟩ := enc_shape c
    rw [e]
    refine ⟨_, rfl, ?_⟩
    have := enc_not_ascii h b (by rw [e]; exact List.mem_cons_self)
    rw [UInt8.le_iff_toNat_le] at this
    exact this
  · have hd : ∃ ds, Base64.encode (x :: b) = Base64.digit (x.toNat / 4) :: ds := by
      have hx := x.toNat_lt
      match b with
      | [] => exact ⟨_, by rw [Base64.encode]; congr 2; omega⟩
      | [y] =>
        have hy := y.toNat_lt
        exact ⟨_, by rw [Base64.encode]; congr 2; omega⟩
      | y :: z :: rest =>
        have hy := y.toNat_lt
        have hz := z.toNat_lt
        exact ⟨_, by rw [Base64.encode]; congr 2; omega⟩
    obtain ⟨ds, hd⟩ := hd
    have key : ∀ n : Fin 256, (Base64.digit (n / 4)).toNat < 128 ∧ ((Base64.digit (n / 4)).toNat = n.val ↔ n.val = 86) := by
      decide +kernel
    obtain ⟨h1, h2⟩ := key ⟨x.toNat, x.toNat_lt⟩
    change (Base64.digit (x.toNat / 4)).toNat < 128 at h1
    change (Base64.digit (x.toNat / 4)).toNat = x.toNat ↔ x.toNat = 86 at h2
    simp only [asciiOf, hd, utf8_cons]
    rw [enc_ascii h1]
    simp only [List.cons_append, List.nil_append, List.head?_cons, Option.map_some, Option.getD_some, Res.ok.injEq, Val.int.injEq,
      Int.ofNat_inj]
    rw [UInt8.toNat_ofNat', Nat.mod_eq_of_lt (by omega), h2]
    constructor
    · intro h; exact UInt8.toNat_inj.mp h
    · rintro rfl; rfl

/-- ASCII(b'A') is 81, the code of the Q of 'QQ=='. -/
theorem C218_full_false : ¬ C218_full := by
  rintro ⟨_, h, _⟩
  have := ((C218_partial.2.2.2.2.2) 65 []).mp (h 65 [] (by decide))
  revert this
  decide

/-- A text of ASCII and one that starts with 'é'. -/
example : asciiOf (.str ['a', 'b']) = .ok (.int 97) ∧ asciiOf (.str ['é']) = .ok (.int 195) := by
  constructor <;> simp only [asciiOf] <;> congr 2

end Verif.Words
