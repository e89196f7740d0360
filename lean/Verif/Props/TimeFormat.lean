import Verif.Model.TimeFormat
import Verif.Spec.Calendar
import Verif.Props.Cast

/-!
# Texts of dates and times by a format: C54, C115–C119
-/

namespace Verif.TimeFormat

open Go Verif.Val

/-! ### Steps of the loops -/

section
variable (zone : List Char) (k : TimeKind) (t : T) (ansic : List Char → Option Int)

theorem format_lit {c : Char} (h : c ≠ '%') (f : List Char) : format zone k t (c :: f) = (format zone k t f).bind fun s => .ok (c :: s) := by
  rw [format.eq_def]
  simp only [if_neg h]

theorem format_elem {e : Char} {ks : List TimeKind} (h1 : e ≠ 'E') (h2 : kinds e = some ks) (h3 : k ∈ ks) (f : List Char) :
    format zone k t ('%' :: e :: f) = (formatElem zone t e).bind fun s => (format zone k t f).bind fun s' => .ok (s ++ s') := by
  rw [format, if_pos rfl]
  simp only [if_neg h1]
  rw [h2]
  simp only [if_pos h3]

theorem format_combo {m : Combo} {g g' : List Char} (h2 : combo g = some (m, g')) (h3 : k ∈ m.kinds) :
    format zone k t ('%' :: 'E' :: g) = (format zone k t g'.tail).bind fun s => .ok (m.format t ++ s) := by
  rw [format, if_pos rfl]
  simp only [if_true]
  split
  · rename_i h; rw [h2] at h; cases h
  · rename_i m' g'' h
    rw [h2] at h
    injection h with h
    injection h with e1 e2
    subst e1 e2
    rw [if_pos h3]

theorem loop_lit {c : Char} (h1 : c ≠ '%') (h2 : c ≠ ' ') (f : List Char) (s : S) (d : Char) (rest : List Char) :
    loop ansic k (c :: f) { s with rest := d :: rest } = loop ansic k f { s with rest := rest } := by
  rw [loop.eq_def]
  simp only [if_neg h1, if_neg h2]

theorem loop_over {c : Char} (h1 : c ≠ '%') (h2 : c ≠ ' ') (f : List Char) (s : S) (h : s.rest = []) :
    loop ansic k (c :: f) s = loop ansic k f { s with over := true } := by
  rw [loop.eq_def]
  simp only [if_neg h1, if_neg h2, h]

theorem loop_space (f : List Char) (s : S) : loop ansic k (' ' :: f) s = loop ansic k f { s with rest := s.rest.dropWhile fun c => c = ' ' } := by
  rw [loop.eq_def]
  simp only [if_neg (show ¬ (' ' = '%') by decide), if_true]

theorem loop_elem {e : Char} {ks : List TimeKind} (h1 : e ≠ 'E') (h2 : kinds e = some ks) (h3 : k ∈ ks) (f : List Char) (s : S)
    (h4 : s.over = false) (h5 : s.rest ≠ []) :
    loop ansic k ('%' :: e :: f) s = (parseElem ansic e s.rest s.t).bind fun (rest, t) =>
      loop ansic k f { s with t := t, rest := rest, seen := e :: s.seen, ampm := if e = 'p' then s.rest.take 2 else s.ampm } := by
  rw [loop, if_pos rfl]
  simp only [if_neg h1]
  rw [h2]
  simp only [if_pos h3]
  rw [if_neg (by simp [h4, h5])]

theorem loop_combo {m : Combo} {g g' : List Char} (h2 : combo g = some (m, g')) (h3 : k ∈ m.kinds) (s : S) (h4 : s.over = false) (h5 : s.rest ≠ []) :
    loop ansic k ('%' :: 'E' :: g) s = (m.parse s.rest s.t).bind fun (rest, t) => loop ansic k g' { s with t := t, rest := rest, seen := 'E' :: s.seen } := by
  rw [loop, if_pos rfl]
  simp only [if_true]
  split
  · rename_i h; rw [h2] at h; cases h
  · rename_i m' g'' h
    rw [h2] at h
    injection h with h
    injection h with e1 e2
    subst e1 e2
    rw [if_pos h3, if_neg (by simp [h4, h5])]

theorem format_nil : format zone k t [] = .ok [] := by rw [format]
theorem loop_nil (s : S) : loop ansic k [] s = .ok s := by rw [loop]

end

/-! ### Fields -/

/-- The fields of a time. -/
structure F where
  y : Int
  mo : Int
  d : Int
  h : Int
  mi : Int
  s : Int
  n : Int

/-- Fields that exist. -/
def F.Valid (f : F) : Prop :=
  (1 ≤ f.mo ∧ f.mo ≤ 12) ∧ (1 ≤ f.d ∧ f.d ≤ monthLen f.y f.mo) ∧ (0 ≤ f.h ∧ f.h < 24) ∧ (0 ≤ f.mi ∧ f.mi < 60) ∧ (0 ≤ f.s ∧ f.s < 60) ∧ (0 ≤ f.n ∧ f.n < 1000000000)

/-- The time with the fields. -/
def F.t (f : F) : T := { wall := tDate f.y f.mo f.d f.h f.mi f.s f.n, off := 0 }

theorem clock_fields {day h mi s n : Int} (hh : 0 ≤ h ∧ h < 24) (hm : 0 ≤ mi ∧ mi < 60) (hs : 0 ≤ s ∧ s < 60) (hn : 0 ≤ n ∧ n < 1000000000) :
    tDay (day * dayNs + h * hour + mi * minute + s * sec + n) = day ∧ tHour (day * dayNs + h * hour + mi * minute + s * sec + n) = h ∧
    tMinute (day * dayNs + h * hour + mi * minute + s * sec + n) = mi ∧ tSecond (day * dayNs + h * hour + mi * minute + s * sec + n) = s ∧
    tNano (day * dayNs + h * hour + mi * minute + s * sec + n) = n := by
  unfold tHour tMinute tSecond tNano tod tDay dayNs hour minute sec
  omega

theorem F.fields {f : F} (v : f.Valid) : f.t.year = f.y ∧ f.t.month = f.mo ∧ f.t.day = f.d ∧ tHour f.t.wall = f.h ∧ tMinute f.t.wall = f.mi ∧ tSecond f.t.wall = f.s ∧ tNano f.t.wall = f.n := by
  obtain ⟨v1, v2, v3, v4, v5, v6⟩ := v
  have h := clock_fields (day := daysOf f.y f.mo f.d) v3 v4 v5 v6
  have h2 := daysOf_fields v1.1 v1.2 v2.1 v2.2
  unfold T.year T.month T.day
  have e : f.t.wall = daysOf f.y f.mo f.d * dayNs + f.h * hour + f.mi * minute + f.s * sec + f.n := rfl
  rw [e, h.1]
  exact ⟨h2.1, h2.2.1, h2.2.2, h.2.1, h.2.2.1, h.2.2.2.1, h.2.2.2.2⟩

theorem setYear_t {f : F} (v : f.Valid) (y : Int) : f.t.setYear y = F.t { f with y := y } := by
  have h := F.fields v
  unfold T.setYear T.date
  rw [h.2.1, h.2.2.1, h.2.2.2.1, h.2.2.2.2.1, h.2.2.2.2.2.1, h.2.2.2.2.2.2]; rfl
theorem setMonth_t {f : F} (v : f.Valid) (m : Int) : f.t.setMonth m = F.t { f with mo := m } := by
  have h := F.fields v
  unfold T.setMonth T.date
  rw [h.1, h.2.2.1, h.2.2.2.1, h.2.2.2.2.1, h.2.2.2.2.2.1, h.2.2.2.2.2.2]; rfl
theorem setDay_t {f : F} (v : f.Valid) (d : Int) : f.t.setDay d = F.t { f with d := d } := by
  have h := F.fields v
  unfold T.setDay T.date
  rw [h.1, h.2.1, h.2.2.2.1, h.2.2.2.2.1, h.2.2.2.2.2.1, h.2.2.2.2.2.2]; rfl
theorem setHour_t {f : F} (v : f.Valid) (m : Int) : f.t.setHour m = F.t { f with h := m } := by
  have h := F.fields v
  unfold T.setHour T.date
  rw [h.1, h.2.1, h.2.2.1, h.2.2.2.2.1, h.2.2.2.2.2.1, h.2.2.2.2.2.2]; rfl
theorem setMinute_t {f : F} (v : f.Valid) (m : Int) : f.t.setMinute m = F.t { f with mi := m } := by
  have h := F.fields v
  unfold T.setMinute T.date
  rw [h.1, h.2.1, h.2.2.1, h.2.2.2.1, h.2.2.2.2.2.1, h.2.2.2.2.2.2]; rfl
theorem setSecond_t {f : F} (v : f.Valid) (m : Int) : f.t.setSecond m = F.t { f with s := m } := by
  have h := F.fields v
  unfold T.setSecond T.date
  rw [h.1, h.2.1, h.2.2.1, h.2.2.2.1, h.2.2.2.2.1, h.2.2.2.2.2.2]; rfl

/-- The fields of an instant. -/
def fieldsOf (w : Int) : F := { y := yearOf (tDay w), mo := monthOf (tDay w), d := dayOf (tDay w), h := tHour w, mi := tMinute w, s := tSecond w, n := tNano w }

theorem fieldsOf_valid (w : Int) : (fieldsOf w).Valid := by
  have h := civil_valid (tDay w)
  have hb : 0 ≤ tHour w ∧ tHour w < 24 ∧ 0 ≤ tMinute w ∧ tMinute w < 60 ∧ 0 ≤ tSecond w ∧ tSecond w < 60 ∧ 0 ≤ tNano w ∧ tNano w < 1000000000 := by
    unfold tHour tMinute tSecond tNano tod dayNs hour minute sec
    omega
  exact ⟨⟨h.1, h.2.1⟩, ⟨h.2.2.1, h.2.2.2⟩, ⟨hb.1, hb.2.1⟩, ⟨hb.2.2.1, hb.2.2.2.1⟩, ⟨hb.2.2.2.2.1, hb.2.2.2.2.2.1⟩, hb.2.2.2.2.2.2⟩

theorem fieldsOf_t (w : Int) : (fieldsOf w).t = { wall := w, off := 0 } := by
  have := tDate_now w
  unfold F.t fieldsOf
  simp only [this]

/-! ### Numbers -/

theorem isSome_digit {c : Char} (h : 48 ≤ c.toNat ∧ c.toNat ≤ 57) : (digitVal c).isSome = true := by
  unfold digitVal; rw [if_pos h]; rfl

theorem takeWhile_all {p : Char → Bool} {l : List Char} (h : ∀ c ∈ l, p c = true) : l.takeWhile p = l := by
  induction l with
  | nil => rfl
  | cons c l ih =>
    rw [List.takeWhile_cons, if_pos (h c (by simp)), ih fun c hc => h c (by simp [hc])]

/-- Padded numbers are read back, whatever follows. -/
theorem digits_pad {lo hi w n : Nat} (hw : (decNat hi).length = w) (hw0 : 0 < w) (hhi : hi < 10 ^ w) (h1 : lo ≤ n) (h2 : n ≤ hi) (rest : List Char) :
    digits lo hi (padDigits w n ++ rest) = .ok (n, rest) := by
  have hl := padDigits_length w n
  unfold digits
  rw [hw]
  have e1 : (padDigits w n ++ rest).take w = padDigits w n := by rw [List.take_append_of_le_length (by omega), List.take_of_length_le (by omega)]
  rw [e1, takeWhile_all fun c hc => isSome_digit (padDigits_digits w n c hc)]
  have e2 : parseNat (padDigits w n) = some n := by
    unfold parseNat
    rw [if_neg (by intro h; rw [h] at hl; simp at hl; omega), digitsVal_padDigits, Nat.mod_eq_of_lt (by omega)]
  simp only [e2]
  rw [if_pos ⟨h1, h2⟩, hl]
  have e3 : (padDigits w n ++ rest).drop w = rest := by rw [List.drop_append_of_le_length (by omega), List.drop_of_length_le (by omega)]; rfl
  rw [e3]

/-- `s` does not begin with a digit. -/
def NoDigit (s : List Char) : Prop := ∀ c, s.head? = some c → (digitVal c).isSome = false

theorem two_eq {n : Int} (h0 : 0 ≤ n) (h1 : n < 100) : two n = padDigits 2 n.toNat := by
  unfold two padInt pad
  rw [if_neg (by omega), if_pos (by omega)]
  congr 1
  omega

theorem number_two {lo hi : Nat} (hw : (decNat hi).length = 2) (hhi : hi < 100) (set : T → Int → T) {n : Int} (h1 : (lo : Int) ≤ n) (h2 : n ≤ hi) (rest : List Char) (t : T) :
    number lo hi set (two n ++ rest) t = .ok (rest, set t n) := by
  unfold number
  rw [two_eq (by omega) (by omega), digits_pad hw (by omega) (by omega) (by omega) (by omega), Res.bind'_ok]
  have e : ((n.toNat : Nat) : Int) = n := by omega
  simp only [e]

theorem decNat_four {n : Nat} (h : n < 10000) : (decNat n).length ≤ 4 ∧ (1000 ≤ n → (decNat n).length = 4) := by
  rw [decNat_eq]
  split
  · simp; omega
  · rw [decNat_eq]
    split
    · simp; omega
    · rw [decNat_eq]
      split
      · simp; omega
      · rw [decNat_eq, if_pos (by omega)]; simp

theorem takeWhile_append_stop {p : Char → Bool} {l r : List Char} (h : ∀ c ∈ l, p c = true) (hr : ∀ c, r.head? = some c → p c = false) : (l ++ r).takeWhile p = l := by
  induction l with
  | nil =>
    cases r with
    | nil => rfl
    | cons c r => rw [List.nil_append, List.takeWhile_cons, if_neg (by simp [hr c rfl])]
  | cons c l ih =>
    rw [List.cons_append, List.takeWhile_cons, if_pos (h c (by simp)), ih fun c hc => h c (by simp [hc])]

/-- A year is read back when what follows cannot be a part of it. -/
theorem year_read {y : Int} (h1 : 1 ≤ y) (h2 : y ≤ 9999) (rest : List Char) (hr : 1000 ≤ y ∨ NoDigit rest) (t : T) :
    yearP (decInt y ++ rest) t = .ok (rest, t.setYear y) := by
  have hd : decInt y = decNat y.toNat := by unfold decInt; rw [if_neg (by omega)]; congr 1; omega
  have hf := decNat_four (n := y.toNat) (by omega)
  unfold yearP number digits
  rw [hd]
  have hl : (decNat 9999).length = 4 := by decide
  rw [hl]
  have hall : ∀ c ∈ decNat y.toNat, (digitVal c).isSome = true := fun c hc => isSome_digit (decNat_digits _ c hc)
  have e1 : ((decNat y.toNat ++ rest).take 4).takeWhile (fun c => (digitVal c).isSome) = decNat y.toNat := by
    rcases hr with hr | hr
    · have hl4 := hf.2 (by omega)
      rw [List.take_append_of_le_length (by omega), List.take_of_length_le (by omega), takeWhile_all hall]
    · rw [List.take_append, List.take_of_length_le hf.1]
      refine takeWhile_append_stop hall ?_
      intro c hc
      refine hr c ?_
      cases rest with
      | nil => simp at hc
      | cons d rest =>
        cases e : 4 - (decNat y.toNat).length with
        | zero => rw [e] at hc; simp at hc
        | succ n => rw [e] at hc; simpa using hc
  rw [e1]
  simp only [parseNat_decNat]
  rw [if_pos (by omega), Res.bind'_ok]
  have e2 : (decNat y.toNat ++ rest).drop (decNat y.toNat).length = rest := by simp
  have e : ((y.toNat : Nat) : Int) = y := by omega
  simp only [e2, e]

theorem year4_read {y : Int} (h1 : 1 ≤ y) (h2 : y ≤ 9999) (rest : List Char) (t : T) : yearP (padInt 4 y ++ rest) t = .ok (rest, t.setYear y) := by
  have e : padInt 4 y = padDigits 4 y.toNat := by
    unfold padInt pad
    rw [if_neg (by omega), if_pos (by omega)]
    congr 1; omega
  unfold yearP number
  rw [e, digits_pad (by decide) (by decide) (by decide) (by omega) (by omega), Res.bind'_ok]
  have e : ((y.toNat : Nat) : Int) = y := by omega
  simp only [e]

/-! ### Names -/

/-- Two names differ in a letter that both have. -/
def differ (a b : List Char) : Bool := (a.zip b).any fun (x, y) => lower [x] != lower [y]

theorem lower_cons (c : Char) (s : List Char) : lower (c :: s) = lower [c] ++ lower s := rfl

theorem lower_differ {a b : List Char} (h : differ a b = true) (rest : List Char) : lower a ≠ lower ((b ++ rest).take a.length) := by
  induction a generalizing b with
  | nil => simp [differ] at h
  | cons x a ih =>
    cases b with
    | nil => simp [differ] at h
    | cons y b =>
      rw [List.length_cons, List.cons_append, List.take_succ_cons, lower_cons, lower_cons y]
      intro e
      have e' := List.append_inj e rfl
      unfold differ at h
      rw [List.zip_cons_cons, List.any_cons] at h
      rcases Bool.or_eq_true _ _ |>.mp h with h | h
      · simp [e'.1] at h
      · exact ih h e'.2

theorem name_read (ns : List (List Char)) : ∀ (i j : Nat) (n rest : List Char), ns[j]? = some n → (∀ m ∈ ns.take j, differ m n = true) →
    name ns i (n ++ rest) = some (i + j, rest) := by
  induction ns with
  | nil => intro i j n rest h; simp at h
  | cons m ns ih =>
    intro i j n rest h hd
    cases j with
    | zero =>
      simp only [List.getElem?_cons_zero, Option.some.injEq] at h
      subst h
      unfold name
      rw [if_pos (by simp)]
      simp
    | succ j =>
      unfold name
      rw [if_neg (by
        intro hc
        exact lower_differ (hd m (by simp)) rest hc.2)]
      rw [ih (i + 1) j n rest (by simpa using h) (fun m hm => hd m (by simp [hm]))]
      congr 2
      omega

theorem month_name {m : Int} (h1 : 1 ≤ m) (h2 : m ≤ 12) (rest : List Char) :
    ∃ (i : Nat) (n : List Char), (i : Int) + 1 = m ∧ monthNames.getD (m - 1).toNat [] = n ∧ n ≠ [] ∧ n.head? ≠ some ' ' ∧ name monthNames 0 (n ++ rest) = some (i, rest) ∧
      n.take 3 ≠ [] ∧ (n.take 3).head? ≠ some ' ' ∧ name (monthNames.map (·.take 3)) 0 (n.take 3 ++ rest) = some (i, rest) := by
  refine ⟨(m - 1).toNat, _, by omega, rfl, ?_⟩
  have h : (m - 1).toNat < 12 := by omega
  generalize (m - 1).toNat = j at h
  have key : ∀ j, j < 12 → (monthNames.getD j [] ≠ [] ∧ (monthNames.getD j []).head? ≠ some ' ' ∧ monthNames[j]? = some (monthNames.getD j []) ∧ (∀ m ∈ monthNames.take j, differ m (monthNames.getD j []) = true)) ∧
      (monthNames.getD j []).take 3 ≠ [] ∧ ((monthNames.getD j []).take 3).head? ≠ some ' ' ∧ (monthNames.map (·.take 3))[j]? = some ((monthNames.getD j []).take 3) ∧
      ∀ m ∈ (monthNames.map (·.take 3)).take j, differ m ((monthNames.getD j []).take 3) = true := by decide
  obtain ⟨⟨k1, k2, k3, k4⟩, k5, k6, k7, k8⟩ := key j h
  have e1 := name_read monthNames 0 j _ rest k3 k4
  have e2 := name_read (monthNames.map (·.take 3)) 0 j _ rest k7 k8
  rw [Nat.zero_add] at e1 e2
  exact ⟨k1, k2, e1, k5, k6, e2⟩

theorem day_name (n : Int) (rest : List Char) :
    ∃ i s, dayNames.getD (weekday n).toNat [] = s ∧ s ≠ [] ∧ s.head? ≠ some ' ' ∧ name dayNames 0 (s ++ rest) = some (i, rest) ∧
      s.take 3 ≠ [] ∧ (s.take 3).head? ≠ some ' ' ∧ name (dayNames.map (·.take 3)) 0 (s.take 3 ++ rest) = some (i, rest) := by
  refine ⟨(weekday n).toNat, _, rfl, ?_⟩
  have h : (weekday n).toNat < 7 := by unfold weekday; omega
  generalize (weekday n).toNat = j at h
  have key : ∀ j, j < 7 → (dayNames.getD j [] ≠ [] ∧ (dayNames.getD j []).head? ≠ some ' ' ∧ dayNames[j]? = some (dayNames.getD j []) ∧ (∀ m ∈ dayNames.take j, differ m (dayNames.getD j []) = true)) ∧
      (dayNames.getD j []).take 3 ≠ [] ∧ ((dayNames.getD j []).take 3).head? ≠ some ' ' ∧ (dayNames.map (·.take 3))[j]? = some ((dayNames.getD j []).take 3) ∧
      ∀ m ∈ (dayNames.map (·.take 3)).take j, differ m ((dayNames.getD j []).take 3) = true := by decide
  obtain ⟨⟨k1, k2, k3, k4⟩, k5, k6, k7, k8⟩ := key j h
  have e1 := name_read dayNames 0 j _ rest k3 k4
  have e2 := name_read (dayNames.map (·.take 3)) 0 j _ rest k7 k8
  rw [Nat.zero_add] at e1 e2
  exact ⟨k1, k2, e1, k5, k6, e2⟩

/-! ### Elements that are read back -/

/-- Elements whose texts show a field completely, or a weekday. -/
def elems : List Char := ['Y', 'm', 'B', 'b', 'h', 'd', 'e', 'F', 'A', 'a', 'H', 'M', 'S', 'R', 'T', 'X']

/-- `f` with the fields that element `c` shows taken from `x`. -/
def sets (c : Char) (x f : F) : F :=
  if c = 'Y' then { f with y := x.y }
  else if c ∈ ['m', 'B', 'b', 'h'] then { f with mo := x.mo }
  else if c ∈ ['d', 'e'] then { f with d := x.d }
  else if c = 'F' then { f with y := x.y, mo := x.mo, d := x.d }
  else if c = 'H' then { f with h := x.h }
  else if c = 'M' then { f with mi := x.mi }
  else if c = 'S' then { f with s := x.s }
  else if c = 'R' then { f with h := x.h, mi := x.mi }
  else if c ∈ ['T', 'X'] then { f with h := x.h, mi := x.mi, s := x.s }
  else f

/-- The day is still the first, or year and month are known. -/
def Inv (f x : F) : Prop := f.Valid ∧ (f.d = 1 ∨ (f.y = x.y ∧ f.mo = x.mo))

theorem valid_year {f x : F} (v : Inv f x) : Inv { f with y := x.y } x := by
  obtain ⟨⟨v1, v2, v3⟩, h⟩ := v
  have hb := monthLen_bound x.y v1.1 v1.2
  rcases h with h | h
  · exact ⟨⟨v1, ⟨v2.1, by show f.d ≤ monthLen x.y f.mo; omega⟩, v3⟩, .inl h⟩
  · rw [← h.1]; exact ⟨⟨v1, v2, v3⟩, .inr h⟩

theorem valid_month {f x : F} (v : Inv f x) (vx : x.Valid) : Inv { f with mo := x.mo } x := by
  obtain ⟨⟨v1, v2, v3⟩, h⟩ := v
  have hb := monthLen_bound f.y vx.1.1 vx.1.2
  rcases h with h | h
  · exact ⟨⟨vx.1, ⟨v2.1, by show f.d ≤ monthLen f.y x.mo; omega⟩, v3⟩, .inl h⟩
  · rw [← h.2]; exact ⟨⟨v1, v2, v3⟩, .inr h⟩

theorem valid_day {f x : F} (v : Inv f x) (vx : x.Valid) (h : f.y = x.y ∧ f.mo = x.mo) : Inv { f with d := x.d } x := by
  obtain ⟨⟨v1, _, v3⟩, _⟩ := v
  exact ⟨⟨v1, ⟨vx.2.1.1, by show x.d ≤ monthLen f.y f.mo; rw [h.1, h.2]; exact vx.2.1.2⟩, v3⟩, .inr h⟩

theorem valid_hour {f x : F} (v : Inv f x) (vx : x.Valid) : Inv { f with h := x.h } x :=
  ⟨⟨v.1.1, v.1.2.1, vx.2.2.1, v.1.2.2.2⟩, v.2⟩

theorem valid_minute {f x : F} (v : Inv f x) (vx : x.Valid) : Inv { f with mi := x.mi } x :=
  ⟨⟨v.1.1, v.1.2.1, v.1.2.2.1, vx.2.2.2.1, v.1.2.2.2.2⟩, v.2⟩

theorem valid_second {f x : F} (v : Inv f x) (vx : x.Valid) : Inv { f with s := x.s } x :=
  ⟨⟨v.1.1, v.1.2.1, v.1.2.2.1, v.1.2.2.2.1, vx.2.2.2.2.1, v.1.2.2.2.2.2⟩, v.2⟩

/-- A text that is not empty and does not begin with a space. -/
def Solid (s : List Char) : Prop := s ≠ [] ∧ s.head? ≠ some ' '

theorem Solid.append {s : List Char} (h : Solid s) (r : List Char) : Solid (s ++ r) := by
  cases s with
  | nil => exact absurd rfl h.1
  | cons c s => exact ⟨by simp, h.2⟩

theorem solid_digits {s : List Char} (h : s ≠ []) (hd : ∀ c ∈ s, 48 ≤ c.toNat ∧ c.toNat ≤ 57) : Solid s := by
  cases s with
  | nil => exact absurd rfl h
  | cons c s =>
    refine ⟨h, fun e => ?_⟩
    simp only [List.head?_cons, Option.some.injEq] at e
    have := hd c (by simp)
    rw [e] at this
    revert this
    decide

theorem solid_two {n : Int} (h0 : 0 ≤ n) (h1 : n < 100) : Solid (two n) := by
  rw [two_eq h0 h1]
  exact solid_digits (by intro e; have := padDigits_length 2 n.toNat; rw [e] at this; simp at this) (padDigits_digits 2 _)

theorem solid_dec {n : Int} (h0 : 0 ≤ n) : Solid (decInt n) := by
  unfold decInt
  rw [if_neg (by omega)]
  exact solid_digits (decNat_ne_nil _) (decNat_digits _)

theorem solid_pad4 {n : Int} (h0 : 0 ≤ n) (h1 : n ≤ 9999) : Solid (padInt 4 n) := by
  unfold padInt pad
  rw [if_neg (by omega), if_pos (by omega)]
  exact solid_digits (by intro e; have := padDigits_length 4 n.natAbs; rw [e] at this; simp at this) (padDigits_digits 4 _)

theorem spaceAllowed_two {n : Int} (h0 : 0 ≤ n) (h1 : n < 100) (rest : List Char) (t : T) : spaceAllowed (two n ++ rest) t = .ok (two n ++ rest, t) := by
  have h := solid_two h0 h1
  have hl : (two n).length = 2 := by rw [two_eq h0 h1, padDigits_length]
  match e : two n, hl with
  | [a, b], _ =>
    rw [e] at h
    have : a ≠ ' ' := fun e => h.2 (by simp [e])
    show spaceAllowed (a :: b :: rest) t = _
    unfold spaceAllowed
    simp only [if_neg this]
    rfl

theorem static_read (c : Char) (rest : List Char) (t : T) : static c (c :: rest) t = .ok (rest, t) := by
  unfold static; simp

theorem seq_cons {p : Parser} {ps : List Parser} {text : List Char} {t : T} {r : List Char × T} (h : p text t = .ok r) : seq (p :: ps) text t = seq ps r.1 r.2 := by
  show (p text t).bind _ = _
  rw [h]
  rfl

/-- What `c` writes it reads. -/
theorem elem_read (zone : List Char) (ansic : List Char → Option Int) {c : Char} (hc : c ∈ elems) {x f : F} (vx : x.Valid) (y1 : 1 ≤ x.y) (y2 : x.y ≤ 9999)
    (v : Inv f x) (hd : c ∈ ['d', 'e'] → f.y = x.y ∧ f.mo = x.mo) (rest : List Char) (hr : c = 'Y' → 1000 ≤ x.y ∨ NoDigit rest) :
    ∃ s, formatElem zone x.t c = .ok s ∧ Solid s ∧ parseElem ansic c (s ++ rest) f.t = .ok (rest, (sets c x f).t) ∧ Inv (sets c x f) x := by
  have hx := F.fields vx
  have b2 : ∀ n : Int, 0 ≤ n → n < 60 → Solid (two n) := fun n h0 h1 => solid_two h0 (by omega)
  have bd : x.d ≤ 31 := by have := monthLen_bound x.y vx.1.1 vx.1.2; have := vx.2.1.2; omega
  obtain ⟨vm, vd, vh, vi, vs, vn⟩ := id vx
  have Rd : ∀ (g : F) (_ : g.Valid) (r : List Char), dayP (two x.d ++ r) g.t = .ok (r, F.t { g with d := x.d }) := fun g vg r => by
    unfold dayP; rw [number_two (by decide) (by decide) _ (by omega) (by omega), setDay_t vg]
  have Rm : ∀ (g : F) (_ : g.Valid) (r : List Char), monthP (two x.mo ++ r) g.t = .ok (r, F.t { g with mo := x.mo }) := fun g vg r => by
    unfold monthP; rw [number_two (by decide) (by decide) _ (by omega) (by omega), setMonth_t vg]
  have Rh : ∀ (g : F) (_ : g.Valid) (r : List Char), hourP (two x.h ++ r) g.t = .ok (r, F.t { g with h := x.h }) := fun g vg r => by
    unfold hourP; rw [number_two (by decide) (by decide) _ (by omega) (by omega), setHour_t vg]
  have Ri : ∀ (g : F) (_ : g.Valid) (r : List Char), minuteP (two x.mi ++ r) g.t = .ok (r, F.t { g with mi := x.mi }) := fun g vg r => by
    unfold minuteP; rw [number_two (by decide) (by decide) _ (by omega) (by omega), setMinute_t vg]
  have Rs : ∀ (g : F) (_ : g.Valid) (r : List Char), secondP (two x.s ++ r) g.t = .ok (r, F.t { g with s := x.s }) := fun g vg r => by
    unfold secondP; rw [number_two (by decide) (by decide) _ (by omega) (by omega), setSecond_t vg]
  obtain ⟨i, n, hi, hn, n1, n2, n3, n4, n5, n6⟩ := month_name vm.1 vm.2 rest
  obtain ⟨j, w, hw, w1, w2, w3, w4, w5, w6⟩ := day_name (tDay x.t.wall) rest
  have hb : { f.t with wall := tAddDate f.t.wall 0 (i + 1 - f.t.month) 0 } = F.t { f with mo := x.mo } := by
    have hf := F.fields v.1
    have e : tAddDate f.t.wall 0 (i + 1 - f.t.month) 0 = tDate (f.t.year + 0) (f.t.month + (i + 1 - f.t.month)) (f.t.day + 0) (tHour f.t.wall) (tMinute f.t.wall) (tSecond f.t.wall) (tNano f.t.wall) := rfl
    rw [e, hf.1, hf.2.1, hf.2.2.1, hf.2.2.2.1, hf.2.2.2.2.1, hf.2.2.2.2.2.1, hf.2.2.2.2.2.2, Int.add_zero, Int.add_zero, show f.mo + ((i : Int) + 1 - f.mo) = x.mo by omega]
    rfl
  have short : ∃ s, Res.ok ((monthNames.getD (x.t.month - 1).toNat []).take 3) = .ok s ∧ Solid s ∧
      (match name (monthNames.map (·.take 3)) 0 (s ++ rest) with
        | some (i, rest) => Res.ok (rest, { f.t with wall := tAddDate f.t.wall 0 (i + 1 - f.t.month) 0 })
        | none => .err) = .ok (rest, F.t { f with mo := x.mo }) ∧ Inv { f with mo := x.mo } x := by
    refine ⟨_, rfl, ?_⟩
    rw [hx.2.1, hn]
    refine ⟨⟨n4, n5⟩, ?_, valid_month v vx⟩
    rw [n6]
    simp only [hb]
  have clk : ∃ s, Res.ok (clock x.t) = .ok s ∧ Solid s ∧ seq [hourP, static ':', minuteP, static ':', secondP] (s ++ rest) f.t = .ok (rest, F.t { f with h := x.h, mi := x.mi, s := x.s }) ∧
      Inv { f with h := x.h, mi := x.mi, s := x.s } x := by
    refine ⟨_, rfl, ?_⟩
    unfold clock
    rw [hx.2.2.2.1, hx.2.2.2.2.1, hx.2.2.2.2.2.1]
    have i1 := valid_hour v vx
    have i2 := valid_minute i1 vx
    refine ⟨(solid_two (by omega) (by omega)).append _, ?_, valid_second i2 vx⟩
    simp only [List.append_assoc, List.cons_append]
    rw [seq_cons (Rh f v.1 _)]
    rw [seq_cons (static_read ':' _ _)]
    rw [seq_cons (Ri _ i1.1 _)]
    rw [seq_cons (static_read ':' _ _)]
    rw [seq_cons (Rs _ i2.1 _)]
    rfl
  simp only [elems, List.mem_cons, List.not_mem_nil, or_false] at hc
  rcases hc with rfl | rfl | rfl | rfl | rfl | rfl | rfl | rfl | rfl | rfl | rfl | rfl | rfl | rfl | rfl | rfl
  · refine ⟨decInt x.t.year, rfl, ?_⟩
    rw [hx.1]
    refine ⟨solid_dec (by omega), ?_, valid_year v⟩
    show yearP _ _ = _
    rw [year_read y1 y2 rest (hr rfl), setYear_t v.1]
    rfl
  · refine ⟨two x.t.month, rfl, ?_⟩
    rw [hx.2.1]
    exact ⟨solid_two (by omega) (by omega), Rm f v.1 rest, valid_month v vx⟩
  · refine ⟨monthNames.getD (x.t.month - 1).toNat [], rfl, ?_⟩
    rw [hx.2.1, hn]
    refine ⟨⟨n1, n2⟩, ?_, valid_month v vx⟩
    show (match name monthNames 0 (n ++ rest) with
      | some (i, rest) => Res.ok (rest, f.t.setMonth (i + 1))
      | none => .err) = _
    rw [n3]
    simp only [hi, setMonth_t v.1]
    rfl
  · exact short
  · exact short
  · refine ⟨two x.t.day, rfl, ?_⟩
    rw [hx.2.2.1]
    exact ⟨solid_two (by omega) (by omega), Rd f v.1 rest, valid_day v vx (hd (by simp))⟩
  · refine ⟨two x.t.day, rfl, ?_⟩
    rw [hx.2.2.1]
    refine ⟨solid_two (by omega) (by omega), ?_, valid_day v vx (hd (by simp))⟩
    show seq [spaceAllowed, dayP] _ _ = _
    rw [seq_cons (spaceAllowed_two (by omega) (by omega) _ _), seq_cons (Rd f v.1 rest)]
    rfl
  · refine ⟨padInt 4 x.t.year ++ '-' :: (two x.t.month ++ '-' :: two x.t.day), rfl, ?_⟩
    rw [hx.1, hx.2.1, hx.2.2.1]
    have i1 := valid_year v
    have i2 := valid_month i1 vx
    refine ⟨(solid_pad4 (by omega) (by omega)).append _, ?_, valid_day i2 vx ⟨rfl, rfl⟩⟩
    show seq [yearP, static '-', monthP, static '-', dayP] _ _ = _
    simp only [List.append_assoc, List.cons_append]
    have e := year4_read y1 y2 ('-' :: (two x.mo ++ '-' :: (two x.d ++ rest))) f.t
    rw [setYear_t v.1] at e
    rw [seq_cons e]
    rw [seq_cons (static_read '-' _ _)]
    rw [seq_cons (Rm _ i1.1 _)]
    rw [seq_cons (static_read '-' _ _)]
    rw [seq_cons (Rd _ i2.1 _)]
    rfl
  · refine ⟨w, by rw [← hw]; rfl, ⟨w1, w2⟩, ?_, v⟩
    show (match name dayNames 0 (w ++ rest) with
      | some (_, rest) => Res.ok (rest, f.t)
      | none => .err) = _
    rw [w3]
    rfl
  · refine ⟨w.take 3, by rw [← hw]; rfl, ⟨w4, w5⟩, ?_, v⟩
    show (match name (dayNames.map (·.take 3)) 0 (w.take 3 ++ rest) with
      | some (_, rest) => Res.ok (rest, f.t)
      | none => .err) = _
    rw [w6]
    rfl
  · refine ⟨two (tHour x.t.wall), rfl, ?_⟩
    rw [hx.2.2.2.1]
    exact ⟨solid_two (by omega) (by omega), Rh f v.1 rest, valid_hour v vx⟩
  · refine ⟨two (tMinute x.t.wall), rfl, ?_⟩
    rw [hx.2.2.2.2.1]
    exact ⟨solid_two (by omega) (by omega), Ri f v.1 rest, valid_minute v vx⟩
  · refine ⟨two (tSecond x.t.wall), rfl, ?_⟩
    rw [hx.2.2.2.2.2.1]
    exact ⟨solid_two (by omega) (by omega), Rs f v.1 rest, valid_second v vx⟩
  · refine ⟨two (tHour x.t.wall) ++ ':' :: two (tMinute x.t.wall), rfl, ?_⟩
    rw [hx.2.2.2.1, hx.2.2.2.2.1]
    have i1 := valid_hour v vx
    refine ⟨(solid_two (by omega) (by omega)).append _, ?_, valid_minute i1 vx⟩
    show seq [hourP, static ':', minuteP] _ _ = _
    simp only [List.append_assoc, List.cons_append]
    rw [seq_cons (Rh f v.1 _)]
    rw [seq_cons (static_read ':' _ _)]
    rw [seq_cons (Ri _ i1.1 _)]
    rfl
  · exact clk
  · exact clk

/-! ### Formats -/

/-- A format is a sequence of characters that stand for themselves and of elements. -/
inductive Piece where
  | lit (c : Char)
  | el (c : Char)

@[inherit_doc Piece] def Piece.text : Piece → List Char
  | .lit c => [c]
  | .el c => ['%', c]

@[inherit_doc Piece] def fmt (ps : List Piece) : List Char := ps.flatMap Piece.text

/-- Elements of `elems` that values of type `k` have, and other characters. -/
def Piece.Ok (k : TimeKind) : Piece → Prop
  | .lit c => c ≠ '%'
  | .el c => c ∈ elems ∧ ∃ ks, kinds c = some ks ∧ k ∈ ks

/-- Days come after the year and the month. -/
def Ordered : Bool → Bool → List Piece → Prop
  | _, _, [] => True
  | ys, ms, .lit _ :: ps => Ordered ys ms ps
  | ys, ms, .el c :: ps => (c ∈ ['d', 'e'] → ys = true ∧ ms = true) ∧ Ordered (ys || decide (c ∈ ['Y', 'F'])) (ms || decide (c ∈ ['m', 'B', 'b', 'h', 'F'])) ps

/-- After %Y there is no digit, for years with fewer than four. -/
def Apart (y : Int) : List Piece → Prop
  | [] => True
  | .lit _ :: ps => Apart y ps
  | .el c :: ps => (c = 'Y' → 1000 ≤ y ∨ match ps with
      | [] => True
      | .lit d :: _ => (digitVal d).isSome = false
      | .el _ :: _ => False) ∧ Apart y ps

/-- The fields after reading. -/
def setsAll : List Piece → F → F → F
  | [], _, f => f
  | .lit _ :: ps, x, f => setsAll ps x f
  | .el c :: ps, x, f => setsAll ps x (sets c x f)

theorem Solid.drop {s : List Char} (h : s.head? ≠ some ' ') : s.dropWhile (fun c => c = ' ') = s := by
  cases s with
  | nil => rfl
  | cons c s =>
    rw [List.dropWhile_cons, if_neg]
    intro e
    exact h (by simpa using e)

theorem elems_ne {c : Char} (h : c ∈ elems) : c ≠ 'E' ∧ c ≠ 'p' := by
  constructor <;> (rintro rfl; revert h; decide)

theorem sets_y {c : Char} {x f : F} (h : f.y = x.y ∨ c ∈ ['Y', 'F']) : (sets c x f).y = x.y := by
  rcases h with h | h
  · unfold sets
    repeat' split
    all_goals first
      | rfl
      | exact h
  · simp only [List.mem_cons, List.not_mem_nil, or_false] at h
    rcases h with rfl | rfl <;> rfl

theorem sets_mo {c : Char} {x f : F} (h : f.mo = x.mo ∨ c ∈ ['m', 'B', 'b', 'h', 'F']) : (sets c x f).mo = x.mo := by
  rcases h with h | h
  · unfold sets
    repeat' split
    all_goals first
      | rfl
      | exact h
  · simp only [List.mem_cons, List.not_mem_nil, or_false] at h
    rcases h with rfl | rfl | rfl | rfl | rfl <;> rfl

theorem sets_d {c : Char} {x f : F} (h : f.d = x.d ∨ c ∈ ['d', 'e', 'F']) : (sets c x f).d = x.d := by
  rcases h with h | h
  · unfold sets
    repeat' split
    all_goals first
      | rfl
      | exact h
  · simp only [List.mem_cons, List.not_mem_nil, or_false] at h
    rcases h with rfl | rfl | rfl <;> rfl

theorem sets_h {c : Char} {x f : F} (h : f.h = x.h ∨ c ∈ ['H', 'R', 'T', 'X']) : (sets c x f).h = x.h := by
  rcases h with h | h
  · unfold sets
    repeat' split
    all_goals first
      | rfl
      | exact h
  · simp only [List.mem_cons, List.not_mem_nil, or_false] at h
    rcases h with rfl | rfl | rfl | rfl <;> rfl

theorem sets_mi {c : Char} {x f : F} (h : f.mi = x.mi ∨ c ∈ ['M', 'R', 'T', 'X']) : (sets c x f).mi = x.mi := by
  rcases h with h | h
  · unfold sets
    repeat' split
    all_goals first
      | rfl
      | exact h
  · simp only [List.mem_cons, List.not_mem_nil, or_false] at h
    rcases h with rfl | rfl | rfl | rfl <;> rfl

theorem sets_s {c : Char} {x f : F} (h : f.s = x.s ∨ c ∈ ['S', 'T', 'X']) : (sets c x f).s = x.s := by
  rcases h with h | h
  · unfold sets
    repeat' split
    all_goals first
      | rfl
      | exact h
  · simp only [List.mem_cons, List.not_mem_nil, or_false] at h
    rcases h with rfl | rfl | rfl <;> rfl

theorem sets_n (c : Char) (x f : F) : (sets c x f).n = f.n := by
  unfold sets
  repeat' split
  all_goals rfl

theorem setsAll_field (g : F → Int) (cs : List Char) (hg : ∀ (c : Char) (x f : F), g f = g x ∨ c ∈ cs → g (sets c x f) = g x) (x : F) :
    ∀ (ps : List Piece) (f : F), (g f = g x ∨ ∃ c ∈ cs, ∃ p ∈ ps, p = .el c) → g (setsAll ps x f) = g x := by
  intro ps
  induction ps with
  | nil =>
    intro f h
    rcases h with h | ⟨_, _, _, h, _⟩
    · exact h
    · simp at h
  | cons p ps ih =>
    intro f h
    cases p with
    | lit c =>
      refine ih f ?_
      rcases h with h | ⟨c', hc, p, hp, e⟩
      · exact .inl h
      · subst e
        exact .inr ⟨c', hc, _, by simpa using hp, rfl⟩
    | el c =>
      refine ih (sets c x f) ?_
      rcases h with h | ⟨c', hc, p, hp, e⟩
      · exact .inl (hg c x f (.inl h))
      · subst e
        rcases List.mem_cons.1 hp with e | hp
        · injection e with e
          subst e
          exact .inl (hg c' x f (.inr hc))
        · exact .inr ⟨c', hc, _, hp, rfl⟩

theorem setsAll_n (x : F) : ∀ (ps : List Piece) (f : F), (setsAll ps x f).n = f.n := by
  intro ps
  induction ps with
  | nil => intro f; rfl
  | cons p ps ih =>
    intro f
    cases p with
    | lit c => exact ih f
    | el c => exact (ih _).trans (sets_n c x f)

theorem ordered_known : ∀ (ps : List Piece) (ys ms : Bool), Ordered ys ms ps → (∃ c ∈ ['d', 'e', 'F'], ∃ p ∈ ps, p = .el c) →
    (ys = true ∨ ∃ c ∈ ['Y', 'F'], ∃ p ∈ ps, p = .el c) ∧ (ms = true ∨ ∃ c ∈ ['m', 'B', 'b', 'h', 'F'], ∃ p ∈ ps, p = .el c) := by
  intro ps
  induction ps with
  | nil => rintro ys ms _ ⟨_, _, _, h, _⟩; simp at h
  | cons p ps ih =>
    intro ys ms ho ⟨c, hc, q, hq, e⟩
    subst e
    have lift : ∀ cs : List Char, (∃ c ∈ cs, ∃ p ∈ ps, p = .el c) → ∃ c ∈ cs, ∃ p' ∈ p :: ps, p' = .el c := fun cs ⟨c, hc, p', hp, e⟩ => ⟨c, hc, p', by simp [hp], e⟩
    cases p with
    | lit d =>
      have := ih ys ms ho ⟨c, hc, _, by simpa using hq, rfl⟩
      exact ⟨this.1.imp id (lift _), this.2.imp id (lift _)⟩
    | el d =>
      rcases List.mem_cons.1 hq with e | hq
      · injection e with e
        subst e
        simp only [List.mem_cons, List.not_mem_nil, or_false] at hc
        rcases hc with rfl | rfl | rfl
        · have := ho.1 (by simp); exact ⟨.inl this.1, .inl this.2⟩
        · have := ho.1 (by simp); exact ⟨.inl this.1, .inl this.2⟩
        · exact ⟨.inr ⟨'F', by simp, _, by simp, rfl⟩, .inr ⟨'F', by simp, _, by simp, rfl⟩⟩
      · have := ih _ _ ho.2 ⟨c, hc, _, hq, rfl⟩
        constructor
        · rcases this.1 with h | h
          · rcases Bool.or_eq_true_iff.1 h with h | h
            · exact .inl h
            · exact .inr ⟨d, of_decide_eq_true h, _, by simp, rfl⟩
          · exact .inr (lift _ h)
        · rcases this.2 with h | h
          · rcases Bool.or_eq_true_iff.1 h with h | h
            · exact .inl h
            · exact .inr ⟨d, of_decide_eq_true h, _, by simp, rfl⟩
          · exact .inr (lift _ h)

/-- The last piece is %Y. -/
def EndsY : List Piece → Prop
  | [] => False
  | [.lit _] => False
  | [.el c] => c = 'Y'
  | _ :: p :: ps => EndsY (p :: ps)

theorem EndsY.cons {ps : List Piece} (h : EndsY ps) (p : Piece) : EndsY (p :: ps) := by
  cases ps with
  | nil => exact h.elim
  | cons q ps => cases p <;> exact h

/-- A format writes a text and reads it. -/
theorem pieces_read (zone : List Char) (ansic : List Char → Option Int) (k : TimeKind) {x : F} (vx : x.Valid) (y1 : 1 ≤ x.y) (y2 : x.y ≤ 9999) :
    ∀ (ps : List Piece) (f : F) (ys ms : Bool), (∀ p ∈ ps, p.Ok k) → Ordered ys ms ps → Apart x.y ps → (ys = true → f.y = x.y) → (ms = true → f.mo = x.mo) → Inv f x →
    ∃ s, (∀ g, format zone k x.t (fmt ps ++ g) = (format zone k x.t g).bind fun s' => .ok (s ++ s')) ∧ Inv (setsAll ps x f) x ∧
      ((match ps with | [] => True | .lit d :: _ => (digitVal d).isSome = false | .el _ :: _ => False) → ∀ r, (ps = [] → NoDigit r) → NoDigit (s ++ r)) ∧
      ∀ (g r rest seen ampm : List Char), r.head? ≠ some ' ' → (EndsY ps → NoDigit r ∨ 1000 ≤ x.y) → 'p' ∉ seen → (rest = s ++ r ∨ rest = (s ++ r).dropWhile fun c => c = ' ') →
        ∃ seen', 'p' ∉ seen' ∧ loop ansic k (fmt ps ++ g) { t := f.t, rest := rest, over := false, seen := seen, ampm := ampm } =
          loop ansic k g { t := (setsAll ps x f).t, rest := r, over := false, seen := seen', ampm := ampm } := by
  intro ps
  induction ps with
  | nil =>
    intro f ys ms _ _ _ _ _ v
    refine ⟨[], fun g => ?_, v, fun _ r hr => hr rfl, fun g r rest seen ampm hs _ hp hrest => ⟨seen, hp, ?_⟩⟩
    · show format zone k x.t g = _
      cases format zone k x.t g <;> rfl
    · have : rest = r := by
        rcases hrest with h | h
        · exact h
        · exact h.trans (Solid.drop hs)
      rw [this]
      rfl
  | cons p ps ih =>
    intro f ys ms hok ho ha hys hms v
    cases p with
    | lit c =>
      obtain ⟨s, h1, h2, h3, h4⟩ := ih f ys ms (fun p hp => hok p (by simp [hp])) ho ha hys hms v
      have hc : c ≠ '%' := hok (.lit c) (by simp)
      refine ⟨c :: s, fun g => ?_, h2, fun hd r hr e he => ?_, fun g r rest seen ampm hs hn hp hrest => ?_⟩
      · show format zone k x.t (c :: (fmt ps ++ g)) = _
        rw [format_lit zone k x.t hc, h1]
        cases format zone k x.t g <;> rfl
      · simp only [List.cons_append, List.head?_cons, Option.some.injEq] at he
        rw [← he]; exact hd
      · show ∃ seen', 'p' ∉ seen' ∧ loop ansic k (c :: (fmt ps ++ g)) _ = _
        by_cases hsp : c = ' '
        · subst hsp
          rw [loop_space]
          refine h4 g r _ seen ampm hs (fun h => hn (h.cons _)) hp (.inr ?_)
          simp only
          rcases hrest with h | h
          · rw [h, List.cons_append, List.dropWhile_cons, if_pos (by simp)]
          · rw [h, List.cons_append, List.dropWhile_cons, if_pos (by simp)]
            generalize s ++ r = l
            induction l with
            | nil => rfl
            | cons a l ih =>
              by_cases ha : a = ' '
              · subst ha
                rw [List.dropWhile_cons, if_pos (by simp)]
                exact ih
              · rw [Solid.drop (s := a :: l) (by simpa using ha), Solid.drop (s := a :: l) (by simpa using ha)]
        · have : rest = c :: (s ++ r) := by
            rcases hrest with h | h
            · exact h
            · rw [h, Solid.drop (by simpa using hsp)]; rfl
          rw [this]
          rw [loop_lit k ansic hc hsp (fmt ps ++ g) { t := f.t, rest := [], over := false, seen := seen, ampm := ampm }]
          exact h4 g r _ seen ampm hs (fun h => hn (h.cons _)) hp (.inl rfl)
    | el c =>
      obtain ⟨hc, ks, hk1, hk2⟩ := hok (.el c) (by simp)
      obtain ⟨ho1, ho2⟩ := ho
      obtain ⟨ha1, ha2⟩ := ha
      have hE := elems_ne hc
      -- the element, with nothing after it, only for its text
      obtain ⟨s0, f1, sol, _, inv⟩ := elem_read zone ansic hc vx y1 y2 v (fun h => ⟨hys (ho1 h).1, hms (ho1 h).2⟩) [] (fun _ => .inr (by intro c h; simp at h))
      obtain ⟨s, h1, h2, h3, h4⟩ := ih (sets c x f) _ _ (fun p hp => hok p (by simp [hp])) ho2 ha2
        (fun h => sets_y (by
          rcases Bool.or_eq_true_iff.1 h with h | h
          · exact .inl (hys h)
          · exact .inr (of_decide_eq_true h)))
        (fun h => sets_mo (by
          rcases Bool.or_eq_true_iff.1 h with h | h
          · exact .inl (hms h)
          · exact .inr (of_decide_eq_true h))) inv
      refine ⟨s0 ++ s, fun g => ?_, h2, fun hd => hd.elim, fun g r rest seen ampm hs hn hp hrest => ?_⟩
      · show format zone k x.t ('%' :: c :: (fmt ps ++ g)) = _
        rw [format_elem zone k x.t hE.1 hk1 hk2, f1, h1]
        cases format zone k x.t g <;> simp [Res.bind]
      · show ∃ seen', 'p' ∉ seen' ∧ loop ansic k ('%' :: c :: (fmt ps ++ g)) _ = _
        have e : rest = s0 ++ (s ++ r) := by
          rw [← List.append_assoc]
          rcases hrest with h | h
          · exact h
          · have := (sol.append s).append r
            rw [h, Solid.drop this.2]
        have hne : rest ≠ [] := by rw [e]; exact (sol.append _).1
        rw [loop_elem k ansic hE.1 hk1 hk2 _ _ rfl hne]
        obtain ⟨s0', f1', _, pr, _⟩ := elem_read zone ansic hc vx y1 y2 v (fun h => ⟨hys (ho1 h).1, hms (ho1 h).2⟩) (s ++ r) (fun h => by
          rcases ha1 h with h | h
          · exact .inl h
          · by_cases hy : 1000 ≤ x.y
            · exact .inl hy
            · refine .inr (h3 h r fun e => ?_)
              subst e
              exact (hn ‹c = 'Y'›).resolve_right hy)
        have : s0' = s0 := by rw [f1] at f1'; injection f1' with f1'; exact f1'.symm
        subst this
        simp only [e, pr, Res.bind'_ok, if_neg hE.2]
        exact h4 g r _ (c :: seen) ampm hs (fun h => hn (h.cons _)) (by simp [hE.2.symm, hp]) (.inl rfl)

/-- The time at which reading starts. -/
def epoch : F := { y := 1970, mo := 1, d := 1, h := 0, mi := 0, s := 0, n := 0 }

theorem epoch_valid : epoch.Valid := by unfold F.Valid epoch; decide
theorem epoch_t : epoch.t = { wall := 0, off := 0 } := by decide

/-- Writing and reading, for every format. -/
theorem round_trip (zone : List Char) (ansic : List Char → Option Int) (k : TimeKind) (w : Int) (y1 : 1 ≤ yearOf (tDay w)) (y2 : yearOf (tDay w) ≤ 9999)
    (ps : List Piece) (hok : ∀ p ∈ ps, p.Ok k) (ho : Ordered false false ps) (ha : Apart (yearOf (tDay w)) ps) :
    ∃ s, format zone k { wall := w, off := 0 } (fmt ps) = .ok s ∧ parse ansic k (fmt ps) s = .ok (setsAll ps (fieldsOf w) epoch).t := by
  have vx := fieldsOf_valid w
  obtain ⟨s, h1, _, _, h4⟩ := pieces_read zone ansic k vx y1 y2 ps epoch false false hok ho ha (by simp) (by simp) ⟨epoch_valid, .inl rfl⟩
  refine ⟨s, ?_, ?_⟩
  · have := h1 []
    rw [List.append_nil, fieldsOf_t, format_nil, Res.bind'_ok, List.append_nil] at this
    exact this
  · obtain ⟨seen', hp, e⟩ := h4 [] [] s [] [] (by simp) (fun _ => .inl (by intro c h; simp at h)) (by simp) (.inl (List.append_nil s).symm)
    rw [List.append_nil, epoch_t, loop_nil] at e
    unfold parse
    rw [e, Res.bind'_ok]
    simp [postprocess, hp]

/-! ### C54 -/

/-- `ps` has one of the elements `cs`. -/
def Has (ps : List Piece) (cs : List Char) : Prop := ∃ c ∈ cs, ∃ p ∈ ps, p = .el c

/-- C54: a format that shows year, month and day gives the date back; a text that has other characters is an error. -/
def C54_full : Prop := ∀ (ansic : List Char → Option Int),
  (∀ (n : Int) (ps : List Piece), 1 ≤ yearOf n → yearOf n ≤ 9999 → (∀ p ∈ ps, p.Ok .date) → Has ps ['Y', 'F'] → Has ps ['m', 'B', 'b', 'h', 'F'] → Has ps ['d', 'e', 'F'] → Apart (yearOf n) ps →
    ∃ s, FORMAT .date (fmt ps) (n * dayNs) = .ok (.str s) ∧ PARSE ansic .date (fmt ps) s = .ok (.time .date (n * dayNs))) ∧
  ∀ (c : Char) (s : List Char), c ≠ '%' → c ≠ ' ' → s ≠ [c] → PARSE ansic .date [c] s = .err

theorem fieldsOf_day (n : Int) : fieldsOf (n * dayNs) = { y := yearOf n, mo := monthOf n, d := dayOf n, h := 0, mi := 0, s := 0, n := 0 } := by
  unfold fieldsOf
  rw [tDay_mul]
  have h := tod_mul n
  unfold tHour tMinute tSecond tNano
  rw [h]
  rfl

theorem F.ext' {f g : F} (h1 : f.y = g.y) (h2 : f.mo = g.mo) (h3 : f.d = g.d) (h4 : f.h = g.h) (h5 : f.mi = g.mi) (h6 : f.s = g.s) (h7 : f.n = g.n) : f = g := by
  cases f; cases g; simp_all

/-- C54, partial: every format in which the day comes after the year and the month.  Missing: other orders, and other
characters in the text. -/
theorem C54_partial (ansic : List Char → Option Int) (n : Int) (ps : List Piece) (y1 : 1 ≤ yearOf n) (y2 : yearOf n ≤ 9999) (hok : ∀ p ∈ ps, p.Ok .date)
    (hd : Has ps ['d', 'e', 'F']) (ho : Ordered false false ps) (ha : Apart (yearOf n) ps) :
    ∃ s, FORMAT .date (fmt ps) (n * dayNs) = .ok (.str s) ∧ PARSE ansic .date (fmt ps) s = .ok (.time .date (n * dayNs)) := by
  have hday := tDay_mul n
  obtain ⟨s, h1, h2⟩ := round_trip ['U', 'T', 'C'] ansic .date (n * dayNs) (by rw [hday]; exact y1) (by rw [hday]; exact y2) ps hok ho (by rw [hday]; exact ha)
  refine ⟨s, by unfold FORMAT; rw [h1]; rfl, ?_⟩
  have hk := ordered_known ps false false ho hd
  have e : setsAll ps (fieldsOf (n * dayNs)) epoch = fieldsOf (n * dayNs) := by
    have hf := fieldsOf_day n
    refine F.ext' ?_ ?_ ?_ ?_ ?_ ?_ ?_
    · exact setsAll_field F.y _ (fun c x f h => sets_y h) _ ps epoch (.inr (hk.1.resolve_left (by simp)))
    · exact setsAll_field F.mo _ (fun c x f h => sets_mo h) _ ps epoch (.inr (hk.2.resolve_left (by simp)))
    · exact setsAll_field F.d _ (fun c x f h => sets_d h) _ ps epoch (.inr hd)
    · exact setsAll_field F.h _ (fun c x f h => sets_h h) _ ps epoch (.inl (by rw [hf]; rfl))
    · exact setsAll_field F.mi _ (fun c x f h => sets_mi h) _ ps epoch (.inl (by rw [hf]; rfl))
    · exact setsAll_field F.s _ (fun c x f h => sets_s h) _ ps epoch (.inl (by rw [hf]; rfl))
    · rw [setsAll_n, hf]; rfl
  unfold PARSE
  rw [h2, e, fieldsOf_t]
  rfl

/-- %Y-%m-%d, for every date of the years 1 to 9999. -/
example (ansic : List Char → Option Int) (n : Int) (y1 : 1 ≤ yearOf n) (y2 : yearOf n ≤ 9999) :
    ∃ s, FORMAT .date ['%', 'Y', '-', '%', 'm', '-', '%', 'd'] (n * dayNs) = .ok (.str s) ∧ PARSE ansic .date ['%', 'Y', '-', '%', 'm', '-', '%', 'd'] s = .ok (.time .date (n * dayNs)) :=
  C54_partial ansic n [.el 'Y', .lit '-', .el 'm', .lit '-', .el 'd'] y1 y2
    (by
      intro p hp
      simp only [List.mem_cons, List.not_mem_nil, or_false] at hp
      rcases hp with rfl | rfl | rfl | rfl | rfl
      · exact ⟨by decide, _, rfl, by decide⟩
      · exact (by decide : '-' ≠ '%')
      · exact ⟨by decide, _, rfl, by decide⟩
      · exact (by decide : '-' ≠ '%')
      · exact ⟨by decide, _, rfl, by decide⟩)
    ⟨'d', by simp, _, by simp, rfl⟩ (by simp [Ordered]) (by simp [Apart]; exact .inr (by decide))

theorem parse_eq {ansic : List Char → Option Int} {k : TimeKind} {f text : List Char} {t : T} {seen ampm : List Char} (hp : 'p' ∉ seen)
    (h : loop ansic k f { t := { wall := 0, off := 0 }, rest := text, over := false, seen := [], ampm := [] } = .ok { t := t, rest := [], over := false, seen := seen, ampm := ampm }) :
    parse ansic k f text = .ok t := by
  unfold parse
  rw [h, Res.bind'_ok]
  simp [postprocess, hp]

/-- The text of %d/%m/%Y. -/
def dmy (y m d : Int) : List Char := two d ++ '/' :: (two m ++ '/' :: decInt y)
/-- The text of %m/%d/%Y. -/
def mdy (y m d : Int) : List Char := two m ++ '/' :: (two d ++ '/' :: decInt y)

theorem leap_day {y m d : Int} (h0 : 1 ≤ m) (h1 : m ≤ 12) (h3 : d ≤ monthLen y m) (h : ¬ (m = 2 ∧ d = 29)) : d ≤ monthLen 1970 m := by
  rw [Spec.monthLen_eq y h0 h1] at h3
  rw [Spec.monthLen_eq 1970 h0 h1]
  have hl : ¬ Spec.leap 1970 := by decide
  unfold Spec.daysIn at h3 ⊢
  rw [if_neg hl]
  repeat' split at h3
  all_goals repeat' split
  all_goals omega

theorem leap_next {y : Int} (h3 : 29 ≤ monthLen y 2) : daysOf y 3 1 = daysOf y 2 29 + 1 := by
  have h1 := daysOf_month (y := y) (m := 3) 1 (by omega) (by omega)
  have h2 := daysOf_month (y := y) (m := 2) 29 (by omega) (by omega)
  have hb := monthLen_bound y (m := 2) (by omega) (by omega)
  have h4 := Spec.monthLen_eq y (m := 2) (by omega) (by omega)
  have h5 : Spec.daysIn y 2 ≤ 29 := by unfold Spec.daysIn; simp; split <;> omega
  have e : monthLen y 2 = monthBefore (isLeap y) 3 - monthBefore (isLeap y) 2 := rfl
  omega

/-- With the day or the month before the year, dates come back except February 29, which becomes March 1. -/
theorem C54_late_year (ansic : List Char → Option Int) (n : Int) (y1 : 1 ≤ yearOf n) (y2 : yearOf n ≤ 9999) :
    FORMAT .date ['%', 'd', '/', '%', 'm', '/', '%', 'Y'] (n * dayNs) = .ok (.str (dmy (yearOf n) (monthOf n) (dayOf n))) ∧
    PARSE ansic .date ['%', 'd', '/', '%', 'm', '/', '%', 'Y'] (dmy (yearOf n) (monthOf n) (dayOf n)) = .ok (.time .date ((if monthOf n = 2 ∧ dayOf n = 29 then n + 1 else n) * dayNs)) ∧
    FORMAT .date ['%', 'm', '/', '%', 'd', '/', '%', 'Y'] (n * dayNs) = .ok (.str (mdy (yearOf n) (monthOf n) (dayOf n))) ∧
    PARSE ansic .date ['%', 'm', '/', '%', 'd', '/', '%', 'Y'] (mdy (yearOf n) (monthOf n) (dayOf n)) = .ok (.time .date ((if monthOf n = 2 ∧ dayOf n = 29 then n + 1 else n) * dayNs)) := by
  have hday := tDay_mul n
  obtain ⟨m1, m2, d1, d2⟩ := civil_valid n
  have d3 : dayOf n ≤ 31 := by have := monthLen_bound (yearOf n) m1 m2; omega
  have hn := daysOf_civil n
  have kd : kinds 'd' = some [.date, .datetime, .timestamp] := rfl
  have km : kinds 'm' = some [.date, .datetime, .timestamp] := rfl
  have kY : kinds 'Y' = some [.date, .datetime, .timestamp] := rfl
  have fd : formatElem ['U', 'T', 'C'] { wall := n * dayNs, off := 0 } 'd' = .ok (two (dayOf n)) := by
    show Res.ok (two (dayOf (tDay (n * dayNs)))) = _
    rw [hday]
  have fm : formatElem ['U', 'T', 'C'] { wall := n * dayNs, off := 0 } 'm' = .ok (two (monthOf n)) := by
    show Res.ok (two (monthOf (tDay (n * dayNs)))) = _
    rw [hday]
  have fY : formatElem ['U', 'T', 'C'] { wall := n * dayNs, off := 0 } 'Y' = .ok (decInt (yearOf n)) := by
    show Res.ok (decInt (yearOf (tDay (n * dayNs)))) = _
    rw [hday]
  generalize hy : yearOf n = y at *
  generalize hm : monthOf n = m at *
  generalize hd : dayOf n = d at *
  -- the last steps
  have last : ∀ t : T, t = F.t { epoch with mo := m, d := d } → t.setYear y = { wall := (if m = 2 ∧ d = 29 then n + 1 else n) * dayNs, off := 0 } := by
    intro t ht
    have ze : ∀ a b c : Int, F.t { y := a, mo := b, d := c, h := 0, mi := 0, s := 0, n := 0 } = { wall := daysOf a b c * dayNs, off := 0 } := by
      intro a b c
      show T.mk (tDate a b c 0 0 0 0) 0 = _
      unfold tDate
      congr 1
      omega
    split
    · rename_i h
      obtain ⟨rfl, rfl⟩ := h
      have e : F.t { epoch with mo := 2, d := 29 } = F.t { epoch with mo := 3, d := 1 } := by decide
      rw [ht, e, setYear_t (by unfold F.Valid epoch; decide)]
      show F.t { y := y, mo := 3, d := 1, h := 0, mi := 0, s := 0, n := 0 } = _
      rw [ze, leap_next d2, hn]
    · rename_i h
      have v : F.Valid { epoch with mo := m, d := d } := ⟨⟨m1, m2⟩, ⟨d1, leap_day m1 m2 d2 h⟩, epoch_valid.2.2⟩
      rw [ht, setYear_t v]
      show F.t { y := y, mo := m, d := d, h := 0, mi := 0, s := 0, n := 0 } = _
      rw [ze, hn]
  have Y : ∀ t : T, yearP (decInt y) t = .ok ([], t.setYear y) := fun t => by
    have := year_read y1 y2 [] (.inr (by intro c h; simp at h)) t
    rwa [List.append_nil] at this
  have D : ∀ (t : T) (r : List Char), dayP (two d ++ r) t = .ok (r, t.setDay d) := fun t r => number_two (by decide) (by decide) _ (by omega) (by omega) r t
  have M : ∀ (t : T) (r : List Char), monthP (two m ++ r) t = .ok (r, t.setMonth m) := fun t r => number_two (by decide) (by decide) _ (by omega) (by omega) r t
  have ne : ∀ (a : Int) (_ : 0 ≤ a) (_ : a < 100) (r : List Char), two a ++ r ≠ [] := fun a h0 h1 r => ((solid_two h0 h1).append r).1
  have neY : decInt y ≠ [] := (solid_dec (by omega)).1
  refine ⟨?_, ?_, ?_, ?_⟩
  · unfold FORMAT
    rw [format_elem _ _ _ (by decide) kd (by decide), fd, Res.bind'_ok, format_lit _ _ _ (by decide), format_elem _ _ _ (by decide) km (by decide), fm, Res.bind'_ok, format_lit _ _ _ (by decide),
      format_elem _ _ _ (by decide) kY (by decide), fY, Res.bind'_ok, format_nil]
    simp [Res.bind, dmy]
  · unfold PARSE
    rw [parse_eq (t := { wall := (if m = 2 ∧ d = 29 then n + 1 else n) * dayNs, off := 0 }) (seen := ['Y', 'm', 'd']) (ampm := []) (by decide)]
    · rfl
    · unfold dmy
      rw [loop_elem _ _ (by decide) kd (by decide) _ _ rfl (ne d (by omega) (by omega) _)]
      show Res.bind (dayP _ _) _ = _
      rw [D, Res.bind'_ok]
      simp only
      rw [loop_lit _ _ (by decide) (by decide) _ { t := _, rest := [], over := false, seen := ['d'], ampm := _ }]
      rw [loop_elem _ _ (by decide) km (by decide) _ _ rfl (ne m (by omega) (by omega) _)]
      show Res.bind (monthP _ _) _ = _
      rw [M, Res.bind'_ok]
      simp only
      rw [loop_lit _ _ (by decide) (by decide) _ { t := _, rest := [], over := false, seen := ['m', 'd'], ampm := _ }]
      rw [loop_elem _ _ (by decide) kY (by decide) _ _ rfl neY]
      show Res.bind (yearP _ _) _ = _
      rw [Y, Res.bind'_ok]
      simp only
      rw [loop_nil, last]
      · rfl
      · have v : F.Valid { epoch with d := d } := ⟨epoch_valid.1, ⟨d1, d3⟩, epoch_valid.2.2⟩
        rw [← epoch_t, setDay_t epoch_valid, setMonth_t v]
  · unfold FORMAT
    rw [format_elem _ _ _ (by decide) km (by decide), fm, Res.bind'_ok, format_lit _ _ _ (by decide), format_elem _ _ _ (by decide) kd (by decide), fd, Res.bind'_ok, format_lit _ _ _ (by decide),
      format_elem _ _ _ (by decide) kY (by decide), fY, Res.bind'_ok, format_nil]
    simp [Res.bind, mdy]
  · unfold PARSE
    rw [parse_eq (t := { wall := (if m = 2 ∧ d = 29 then n + 1 else n) * dayNs, off := 0 }) (seen := ['Y', 'd', 'm']) (ampm := []) (by decide)]
    · rfl
    · unfold mdy
      rw [loop_elem _ _ (by decide) km (by decide) _ _ rfl (ne m (by omega) (by omega) _)]
      show Res.bind (monthP _ _) _ = _
      rw [M, Res.bind'_ok]
      simp only
      rw [loop_lit _ _ (by decide) (by decide) _ { t := _, rest := [], over := false, seen := ['m'], ampm := _ }]
      rw [loop_elem _ _ (by decide) kd (by decide) _ _ rfl (ne d (by omega) (by omega) _)]
      show Res.bind (dayP _ _) _ = _
      rw [D, Res.bind'_ok]
      simp only
      rw [loop_lit _ _ (by decide) (by decide) _ { t := _, rest := [], over := false, seen := ['d', 'm'], ampm := _ }]
      rw [loop_elem _ _ (by decide) kY (by decide) _ _ rfl neY]
      show Res.bind (yearP _ _) _ = _
      rw [Y, Res.bind'_ok]
      simp only
      rw [loop_nil, last]
      · rfl
      · have := monthLen_bound 1970 m1 m2
        have v : F.Valid { epoch with mo := m } := ⟨⟨m1, m2⟩, ⟨epoch_valid.2.1.1, by show 1 ≤ monthLen 1970 m; omega⟩, epoch_valid.2.2⟩
        rw [← epoch_t, setMonth_t epoch_valid, setDay_t v]

/-- PARSE_DATE("%d/%m/%Y", "29/02/2024") is 2024-03-01. -/
theorem C54_full_false : ¬ C54_full := by
  intro h
  obtain ⟨s, h1, h2⟩ := (h fun _ => none).1 19782 [.el 'd', .lit '/', .el 'm', .lit '/', .el 'Y'] (by decide) (by decide)
    (by
      intro p hp
      simp only [List.mem_cons, List.not_mem_nil, or_false] at hp
      rcases hp with rfl | rfl | rfl | rfl | rfl
      · exact ⟨by decide, _, rfl, by decide⟩
      · exact (by decide : '/' ≠ '%')
      · exact ⟨by decide, _, rfl, by decide⟩
      · exact (by decide : '/' ≠ '%')
      · exact ⟨by decide, _, rfl, by decide⟩)
    ⟨'Y', by simp, _, by simp, rfl⟩ ⟨'m', by simp, _, by simp, rfl⟩ ⟨'d', by simp, _, by simp, rfl⟩ (by simp [Apart])
  obtain ⟨g1, g2, _⟩ := C54_late_year (fun _ => none) 19782 (by decide) (by decide)
  have e : s = dmy (yearOf 19782) (monthOf 19782) (dayOf 19782) := by
    have := h1.symm.trans g1
    injection this with this
    injection this
  rw [e] at h2
  have := h2.symm.trans g2
  injection this with this
  injection this with _ this
  revert this
  decide

/-- Other characters are not compared, and a text that is too short panics. -/
theorem C54_other_text (ansic : List Char → Option Int) (k : TimeKind) (c : Char) (h1 : c ≠ '%') (h2 : c ≠ ' ') :
    (∀ d : Char, PARSE ansic k [c] [d] = .ok (.time k 0)) ∧ PARSE ansic k [c] [] = .panic := by
  constructor
  · intro d
    unfold PARSE
    rw [parse_eq (t := { wall := 0, off := 0 }) (seen := []) (ampm := []) (by simp)]
    · cases k <;> rfl
    · rw [loop_lit _ _ h1 h2 _ { t := _, rest := [], over := false, seen := _, ampm := _ }, loop_nil]
  · unfold PARSE parse
    rw [loop_over _ _ h1 h2 _ _ rfl, loop_nil]
    rfl

/-- PARSE_DATE("a", "b") is 1970-01-01. -/
theorem C54_reject_false : ¬ ∀ (ansic : List Char → Option Int) (c : Char) (s : List Char), c ≠ '%' → c ≠ ' ' → s ≠ [c] → PARSE ansic .date [c] s = .err := by
  intro h
  have := h (fun _ => none) 'a' ['b'] (by decide) (by decide) (by decide)
  rw [(C54_other_text (fun _ => none) .date 'a' (by decide) (by decide)).1] at this
  cases this

end Verif.TimeFormat
