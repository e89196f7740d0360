import Verif.Go.Netip
import Verif.Spec.Ipv6
import Verif.Props.Net

/-! # C224–C225: text of IPv6 addresses -/

namespace Verif.Net

open Go Verif.Ipv6Spec

/-! ### Groups -/

theorem group_bytes {t : List Char} {hi lo : UInt8} (h : IsGroup t hi lo) :
    UInt8.ofNat (hexNum t / 256) = hi ∧ UInt8.ofNat (hexNum t) = lo := by
  have e : hexNum t = 256 * hi.toNat + lo.toNat := h.2.2.2
  have h1 := hi.toNat_lt
  have h2 := lo.toNat_lt
  constructor <;> (apply UInt8.toNat_inj.mp; rw [UInt8.toNat_ofNat']; omega)

theorem hexVal_lt {c : Char} {n : Nat} (h : hexVal c = some n) : n < 16 := by
  simp only [hexVal] at h
  repeat' split at h
  all_goals first | cases h | skip
  all_goals omega

theorem foldl_hex_lt : ∀ (t : List Char) (a : Nat),
    t.foldl (fun a c => 16 * a + (hexVal c).getD 0) a < (a + 1) * 16 ^ t.length
  | [], a => by simp
  | c :: t, a => by
    have ih := foldl_hex_lt t (16 * a + (hexVal c).getD 0)
    have : (hexVal c).getD 0 < 16 := by
      cases h : hexVal c with
      | none => simp
      | some n => simpa using hexVal_lt h
    have h2 : (16 * a + (hexVal c).getD 0 + 1) * 16 ^ t.length ≤ ((a + 1) * 16) * 16 ^ t.length :=
      Nat.mul_le_mul_right _ (by omega)
    simp only [List.foldl_cons, List.length_cons, Nat.pow_succ]
    rw [Nat.mul_comm (16 ^ t.length) 16, ← Nat.mul_assoc]
    omega

theorem hexNum_lt (t : List Char) : hexNum t < 16 ^ t.length := by
  have := foldl_hex_lt t 0
  simpa [hexNum] using this

theorem group_small {t : List Char} {hi lo : UInt8} (h : IsGroup t hi lo) : ¬ (4 < t.length ∨ t = []) := by
  have h1 := h.1
  have h2 := h.2.1
  rintro (e | e)
  · omega
  · subst e; simp at h1

theorem group_of {t : List Char} (h0 : t ≠ []) (h4 : t.length ≤ 4) (h : ∀ c ∈ t, isHex c = true) :
    IsGroup t (UInt8.ofNat (hexNum t / 256)) (UInt8.ofNat (hexNum t)) := by
  refine ⟨List.length_pos_iff.mpr h0, h4, h, ?_⟩
  have h1 := hexNum_lt t
  have h2 : 16 ^ t.length ≤ 16 ^ 4 := Nat.pow_le_pow_right (by omega) h4
  show hexNum t = _
  rw [UInt8.toNat_ofNat', UInt8.toNat_ofNat']
  omega

theorem takeWhile_front {p : Char → Bool} {t : List Char} (h : ∀ c ∈ t, p c = true) {c : Char} (hc : p c = false) (s : List Char) :
    (t ++ c :: s).takeWhile p = t ∧ (t ++ c :: s).dropWhile p = c :: s := by
  induction t with
  | nil => simp [hc]
  | cons d t ih =>
    have := ih fun c hc => h c (by simp [hc])
    simp [h d (by simp), this.1, this.2]

theorem takeWhile_all {p : Char → Bool} {t : List Char} (h : ∀ c ∈ t, p c = true) :
    t.takeWhile p = t ∧ t.dropWhile p = [] := by
  induction t with
  | nil => simp
  | cons d t ih =>
    have := ih fun c hc => h c (by simp [hc])
    simp [h d (by simp), this.1, this.2]

theorem isHex_colon : isHex ':' = false := by decide
theorem isHex_dot : isHex '.' = false := by decide

theorem digit_hex {c : Char} (h : 48 ≤ c.toNat ∧ c.toNat ≤ 57) : isHex c = true := by
  simp [isHex, hexVal, h]

/-- The texts of pieces begin with a hex digit. -/
theorem pieces_head {q : Bool} {s : List Char} {b : List UInt8} (h : Pieces q s b) : ∃ c r, s = c :: r ∧ isHex c = true := by
  have hg : ∀ {t : List Char} {hi lo : UInt8}, IsGroup t hi lo → ∃ c r, t = c :: r ∧ isHex c = true := by
    intro t hi lo h
    match t, h with
    | c :: r, h => exact ⟨c, r, rfl, h.2.2.1 c (by simp)⟩
    | [], h => exact absurd h.1 (by simp)
  cases h with
  | group _ h => exact hg h
  | quad h =>
    match b, h with
    | [w, x, y, z], _ =>
      have hd := decNat_digits w.toNat
      have hn := decNat_ne_nil w.toNat
      cases he : decNat w.toNat with
      | nil => exact absurd he hn
      | cons c r => exact ⟨c, _, by simp [ipv4Text, he]; rfl, digit_hex (hd c (by simp [he]))⟩
  | cons h hs =>
    obtain ⟨c, r, rfl, hc⟩ := hg h
    exact ⟨c, _, rfl, hc⟩

theorem pieces_length {q : Bool} {s : List Char} {b : List UInt8} (h : Pieces q s b) : 2 ≤ b.length ∧ b.length % 2 = 0 := by
  induction h with
  | group => simp
  | quad h => omega
  | cons _ _ ih => simp; omega

theorem dec_short : ∀ n : Nat, n < 256 → (decNat n).length ≤ 3 := by decide +kernel

/-! ### What is written is read -/

theorem loop_pieces {q : Bool} {s : List Char} {b : List UInt8} (h : Pieces q s b) : ∀ (ip : List UInt8) (ell : Option Nat),
    ip.length + b.length ≤ 16 → (ell = none → ip.length + b.length = 16) → v6Loop s ip ell = some (ip ++ b, ell, []) := by
  induction h with
  | group q h =>
    intro ip ell hl he
    simp only [List.length_cons, List.length_nil] at hl
    obtain ⟨h1, h2⟩ := takeWhile_all h.2.2.1
    rw [v6Loop, if_pos (by omega)]
    change List.takeWhile isHex _ = _ at h1
    change List.dropWhile isHex _ = _ at h2
    rw [h1, h2, if_neg]
    · simp [(group_bytes h).1, (group_bytes h).2]
    · exact group_small h
  | quad hb =>
    rename_i b
    intro ip ell hl he
    obtain ⟨w, x, y, z, rfl⟩ : ∃ w x y z, b = [w, x, y, z] := by
      match b, hb with
      | [w, x, y, z], _ => exact ⟨w, x, y, z, rfl⟩
    have hp : parseLoop (ipv4Text [w, x, y, z]) 0 0 [] = some [w, x, y, z] := (ipv4_parse _ _).mpr ⟨rfl, rfl⟩
    have ht : ipv4Text [w, x, y, z] = decNat w.toNat ++ '.' :: ipv4Text [x, y, z] := rfl
    have hd := takeWhile_front (p := isHex) (fun c hc => digit_hex (decNat_digits w.toNat c hc)) isHex_dot (ipv4Text [x, y, z])
    have hw := dec_short w.toNat w.toNat_lt
    have hn := decNat_ne_nil w.toNat
    rw [v6Loop, if_pos (by simp at hl; omega)]
    rw [ht, hd.1, hd.2, ← ht, hp, if_neg (by rintro (h | h); · omega
                                             · exact hn h)]
    simp only [if_true, Option.map_some]
    simp only [List.length_cons, List.length_nil] at hl he
    rw [if_neg (by rintro ⟨h1, h2⟩; have := he h1; omega), if_neg (by omega)]
  | cons h hs ih =>
    intro ip ell hl he
    simp only [List.length_cons] at hl he
    rename_i q t s hi lo b
    obtain ⟨h1, h2⟩ := takeWhile_front (p := isHex) h.2.2.1 isHex_colon s
    obtain ⟨c, r, rfl, hc⟩ := pieces_head hs
    have hcc : c ≠ ':' := by rintro rfl; rw [isHex_colon] at hc; cases hc
    have hb := pieces_length hs
    rw [v6Loop, if_pos (by omega), h1, h2, if_neg]
    · simp only [Char.reduceEq, if_false, ne_eq, not_true_eq_false, hcc]
      rw [ih, (group_bytes h).1, (group_bytes h).2]
      · simp
      · simp; omega
      · intro e; have := he e; simp; omega
    · exact group_small h

theorem loop_ellipsis {l : List Char} {bl : List UInt8} (h : Pieces false l bl) : ∀ (ip : List UInt8) (r : List Char),
    ip.length + bl.length ≤ 16 → v6Loop (l ++ ':' :: ':' :: r) ip none =
      if r = [] then some (ip ++ bl, some (ip.length + bl.length), []) else v6Loop r (ip ++ bl) (some (ip.length + bl.length)) := by
  generalize hq : false = q at h
  induction h with
  | group q h =>
    intro ip r hl
    simp only [List.length_cons, List.length_nil] at hl
    rename_i t hi lo
    obtain ⟨h1, h2⟩ := takeWhile_front (p := isHex) h.2.2.1 isHex_colon (':' :: r)
    rw [v6Loop, if_pos (by omega), h1, h2, if_neg]
    · simp [(group_bytes h).1, (group_bytes h).2]
    · exact group_small h
  | quad => cases hq
  | cons h hs ih =>
    intro ip r hl
    simp only [List.length_cons] at hl
    rename_i q t s hi lo b
    rw [List.append_assoc, List.cons_append]
    obtain ⟨h1, h2⟩ := takeWhile_front (p := isHex) h.2.2.1 isHex_colon (s ++ ':' :: ':' :: r)
    have ih := ih hq
    obtain ⟨c, r', rfl, hc⟩ := pieces_head hs
    have hcc : c ≠ ':' := by rintro rfl; rw [isHex_colon] at hc; cases hc
    rw [v6Loop, if_pos (by omega), h1, h2, if_neg]
    · simp only [Char.reduceEq, if_false, ne_eq, not_true_eq_false, hcc, List.cons_append]
      have ih := ih (ip ++ [UInt8.ofNat (hexNum t / 256), UInt8.ofNat (hexNum t)]) r (by simp; omega)
      rw [List.cons_append] at ih
      rw [ih, (group_bytes h).1, (group_bytes h).2]
      simp only [List.append_assoc, List.length_append, List.length_cons, List.length_nil, List.cons_append, List.nil_append]
      rw [show ip.length + (0 + 1 + 1) + b.length = ip.length + (b.length + 1 + 1) by omega]
    · exact group_small h

theorem body_of_head {c : Char} {r : List Char} (h : isHex c = true) : v6Body (c :: r) = (v6Loop (c :: r) [] none).bind v6Finish := by
  unfold v6Body
  split
  · rename_i e
    cases e
    rw [isHex_colon] at h; cases h
  · rfl

theorem body_complete {s : List Char} {b : List UInt8} (h : Denotes s b) : v6Body s = some b := by
  obtain ⟨hb, h | ⟨l, bl, r, br, hl, hr, rfl, hlen, hb'⟩⟩ := h
  · obtain ⟨c, r, rfl, hc⟩ := pieces_head h
    rw [body_of_head hc, loop_pieces h [] none (by simp; omega) (fun _ => by simp; omega)]
    simp [v6Finish, hb]
  · have hfin : ∀ e : Nat, e = bl.length → v6Finish (bl ++ br, some e, []) = some b := by
      intro e he
      subst he
      simp only [v6Finish, ne_eq, not_true_eq_false, if_false, List.length_append]
      rw [if_pos (by omega), hb', List.take_left, List.drop_left]
    rcases hl with ⟨rfl, rfl⟩ | hl
    · rcases hr with ⟨rfl, rfl⟩ | hr
      · simp [v6Body, hb']
      · obtain ⟨c, r, rfl, hc⟩ := pieces_head hr
        simp only [List.nil_append, v6Body, reduceCtorEq, if_false]
        simp only [List.length_nil, Nat.zero_add] at hlen
        rw [loop_pieces hr [] (some 0) (by simp; omega) (by simp)]
        exact hfin 0 rfl
    · have hc := pieces_head hl
      obtain ⟨c, r', e, hc⟩ := hc
      have e2 : v6Body (l ++ ':' :: ':' :: r) = (v6Loop (l ++ ':' :: ':' :: r) [] none).bind v6Finish := by
        rw [e]; exact body_of_head hc
      rw [e2, loop_ellipsis hl [] r (by simp; omega)]
      rcases hr with ⟨rfl, rfl⟩ | hr
      · simp only [if_true, List.nil_append, Option.bind_some]
        have := hfin bl.length rfl
        simpa using this
      · obtain ⟨c2, r2, rfl, hc2⟩ := pieces_head hr
        simp only [reduceCtorEq, if_false, List.nil_append]
        rw [loop_pieces hr bl _ (by omega) (by simp)]
        exact hfin _ (by simp)

/-! ### What is read was written -/

/-- A text splits at its first character that is no hex digit. -/
theorem hex_split (s : List Char) : s = s.takeWhile isHex ++ s.dropWhile isHex ∧ (∀ c ∈ s.takeWhile isHex, isHex c = true) := by
  refine ⟨(List.takeWhile_append_dropWhile).symm, ?_⟩
  intro c hc
  have := List.all_takeWhile (p := isHex) (l := s)
  exact List.all_eq_true.mp this c hc

theorem loop_sound : ∀ (n : Nat) (s : List Char) (ip : List UInt8) (ell : Option Nat) (ip' : List UInt8) (ell' : Option Nat),
    16 - ip.length = n → s ≠ [] → v6Loop s ip ell = some (ip', ell', []) →
    (ell' = ell ∧ ∃ b, Pieces true s b ∧ ip' = ip ++ b) ∨
    (ell = none ∧ ∃ l bl r br, Pieces false l bl ∧ Side true r br ∧ s = l ++ ':' :: ':' :: r ∧ ip' = ip ++ bl ++ br ∧
      ell' = some (ip.length + bl.length)) := by
  intro n
  induction n using Nat.strongRecOn with
  | _ n ih =>
    intro s ip ell ip' ell' hn hs h
    rw [v6Loop] at h
    split at h
    · rename_i hlt
      split at h
      · cases h
      · rename_i hg
        obtain ⟨hsplit, hhex⟩ := hex_split s
        have hgr := group_of (t := s.takeWhile isHex) (fun e => hg (.inr e)) (Nat.le_of_not_lt fun e => hg (.inl e)) hhex
        generalize ht : s.takeWhile isHex = t at *
        split at h
        · rename_i hd
          rw [hd, List.append_nil] at hsplit
          cases h
          refine .inl ⟨rfl, _, ?_, rfl⟩
          rw [hsplit]; exact .group _ hgr
        · rename_i c s1 hd
          rw [hd] at hsplit
          split at h
          · split at h
            · cases h
            · split at h
              · cases h
              · cases hp : parseLoop s 0 0 [] with
                | none => rw [hp] at h; cases h
                | some f =>
                  rw [hp] at h
                  cases h
                  obtain ⟨h1, h2⟩ := (ipv4_parse _ _).mp hp
                  refine .inl ⟨rfl, f, ?_, rfl⟩
                  rw [h2]; exact .quad h1
          · split at h
            · cases h
            · rename_i hc
              have hc : c = ':' := Decidable.of_not_not hc
              subst hc
              split at h
              · cases h
              · rename_i d s2
                split at h
                · rename_i hd2
                  subst hd2
                  split at h
                  · cases h
                  · rename_i hell
                    have hell : ell = none := by cases ell <;> simp_all
                    split at h
                    · rename_i hs2
                      subst hs2
                      cases h
                      refine .inr ⟨hell, t, _, [], [], .group _ hgr, .inl ⟨rfl, rfl⟩, by rw [hsplit], by rw [List.append_nil], rfl⟩
                    · rename_i hs2
                      rcases ih _ (by simp; omega) s2 _ _ ip' ell' rfl hs2 h with ⟨h1, b, h2, h3⟩ | ⟨h1, _⟩
                      · exact .inr ⟨hell, t, _, s2, b, .group _ hgr, .inr h2, hsplit, h3, h1⟩
                      · cases h1
                · rcases ih _ (by simp; omega) (d :: s2) _ ell ip' ell' rfl (by simp) h with ⟨h1, b, h2, h3⟩ | ⟨h1, l, bl, r, br, h2, h3, h4, h5, h6⟩
                  · refine .inl ⟨h1, _, ?_, by rw [h3, List.append_assoc]⟩
                    rw [hsplit]
                    exact .cons hgr h2
                  · refine .inr ⟨h1, t ++ ':' :: l, _, r, br, .cons hgr h2, h3, ?_, ?_, ?_⟩
                    · rw [hsplit, h4]; simp
                    · rw [h5]; simp
                    · rw [h6]; simp only [List.length_append, List.length_cons, List.length_nil]; congr 1; omega
    · cases h
      exact absurd rfl hs

theorem loop_le : ∀ (n : Nat) (s : List Char) (ip : List UInt8) (ell : Option Nat) (x : List UInt8 × Option Nat × List Char),
    16 - ip.length = n → ip.length % 2 = 0 → ip.length ≤ 16 → v6Loop s ip ell = some x → x.1.length ≤ 16 := by
  intro n
  induction n using Nat.strongRecOn with
  | _ n ih =>
    intro s ip ell x hn h2 hle h
    rw [v6Loop] at h
    split at h
    · split at h
      · cases h
      · split at h
        · cases h; simp; omega
        · split at h
          · split at h
            · cases h
            · split at h
              · cases h
              · cases hp : parseLoop s 0 0 [] with
                | none => rw [hp] at h; cases h
                | some f =>
                  rw [hp] at h
                  cases h
                  have := ((ipv4_parse _ _).mp hp).1
                  simp; omega
          · split at h
            · cases h
            · split at h
              · cases h
              · split at h
                · split at h
                  · cases h
                  · split at h
                    · cases h; simp; omega
                    · exact ih _ (by simp; omega) _ _ _ x rfl (by simp; omega) (by simp; omega) h
                · exact ih _ (by simp; omega) _ _ _ x rfl (by simp; omega) (by simp; omega) h
    · cases h; omega

theorem finish_some {ip : List UInt8} {ell : Option Nat} {r : List Char} {b : List UInt8} (h : v6Finish (ip, ell, r) = some b) :
    r = [] ∧ ((ell = none ∧ b = ip ∧ 16 ≤ ip.length) ∨
      ∃ e, ell = some e ∧ ip.length < 16 ∧ b = ip.take e ++ List.replicate (16 - ip.length) 0 ++ ip.drop e) := by
  unfold v6Finish at h
  by_cases hr : r = []
  · refine ⟨hr, ?_⟩
    simp only [hr, ne_eq, not_true_eq_false, if_false] at h
    by_cases hlt : ip.length < 16
    · rw [if_pos hlt] at h
      cases ell with
      | none => cases h
      | some e => cases h; exact .inr ⟨e, rfl, hlt, rfl⟩
    · rw [if_neg hlt] at h
      cases ell with
      | none => cases h; exact .inl ⟨rfl, rfl, by omega⟩
      | some e => cases h
  · simp [hr] at h

theorem side_even {s : List Char} {b : List UInt8} {q : Bool} (h : Side q s b) : b.length % 2 = 0 := by
  rcases h with ⟨_, rfl⟩ | h
  · rfl
  · exact (pieces_length h).2

theorem denotes_ellipsis {l r : List Char} {bl br : List UInt8} (hl : Side false l bl) (hr : Side true r br) (h : (bl ++ br).length < 16) :
    Denotes (l ++ ':' :: ':' :: r)
      ((bl ++ br).take bl.length ++ List.replicate (16 - (bl ++ br).length) 0 ++ (bl ++ br).drop bl.length) := by
  have h1 := side_even hl
  have h2 := side_even hr
  rw [List.take_left, List.drop_left]
  rw [List.length_append] at h ⊢
  exact ⟨by simp; omega, .inr ⟨l, bl, r, br, hl, hr, rfl, by omega, rfl⟩⟩

theorem body_sound {s : List Char} {b : List UInt8} (h : v6Body s = some b) : Denotes s b := by
  unfold v6Body at h
  split at h
  · rename_i r
    split at h
    · rename_i hr
      subst hr
      cases h
      exact denotes_ellipsis (l := []) (r := []) (bl := []) (br := []) (.inl ⟨rfl, rfl⟩) (.inl ⟨rfl, rfl⟩) (by simp)
    · rename_i hr
      cases hx : v6Loop r [] (some 0) with
      | none => rw [hx] at h; cases h
      | some x =>
        rw [hx] at h
        obtain ⟨ip, ell, rest⟩ := x
        obtain ⟨rfl, h2⟩ := finish_some h
        rcases loop_sound _ _ _ _ _ _ rfl hr hx with ⟨rfl, b', h3, rfl⟩ | ⟨h3, _⟩
        · rcases h2 with ⟨h2, _⟩ | ⟨e, h2, h4, rfl⟩
          · cases h2
          · cases h2
            exact denotes_ellipsis (l := []) (bl := []) (.inl ⟨rfl, rfl⟩) (.inr h3) h4
        · cases h3
  · cases hx : v6Loop s [] none with
    | none => rw [hx] at h; cases h
    | some x =>
      rw [hx] at h
      have hle := loop_le _ _ _ _ _ rfl rfl (by simp) hx
      obtain ⟨ip, ell, rest⟩ := x
      obtain ⟨rfl, h2⟩ := finish_some h
      have hs : s ≠ [] := by
        rintro rfl
        rw [v6Loop] at hx
        simp at hx
      rcases loop_sound _ _ _ _ _ _ rfl hs hx with ⟨rfl, b', h3, rfl⟩ | ⟨_, l, bl, r, br, h3, h4, rfl, rfl, rfl⟩
      · rcases h2 with ⟨_, rfl, h5⟩ | ⟨e, h2, _⟩
        · simp only at h5 hle ⊢
          exact ⟨by omega, .inl h3⟩
        · cases h2
      · rcases h2 with ⟨h2, _⟩ | ⟨e, h2, h5, rfl⟩
        · cases h2
        · cases h2
          have := denotes_ellipsis (.inr h3) h4 (by simpa using h5)
          simpa using this

theorem body_iff (s : List Char) (b : List UInt8) : v6Body s = some b ↔ Denotes s b := ⟨body_sound, body_complete⟩

/-! ### Zones and the choice between IPv4 and IPv6 -/

theorem hex_not_sep {c : Char} (h : isHex c = true) : ¬ (c = '.' ∨ c = ':' ∨ c = '%') := by
  rintro (rfl | rfl | rfl) <;> revert h <;> decide

theorem ipv4Text_chars : ∀ (b : List UInt8), ∀ c ∈ ipv4Text b, isHex c = true ∨ c = '.'
  | [], c, h => by cases h
  | [a], c, h => .inl (digit_hex (decNat_digits _ c h))
  | a :: a2 :: b, c, h => by
    simp only [ipv4Text, List.mem_append, List.mem_cons] at h
    rcases h with h | h | h
    · exact .inl (digit_hex (decNat_digits _ c h))
    · exact .inr h
    · exact ipv4Text_chars (a2 :: b) c h

theorem pieces_chars {q : Bool} {s : List Char} {b : List UInt8} (h : Pieces q s b) : '%' ∉ s := by
  have hx : ∀ {t : List Char} {hi lo : UInt8}, IsGroup t hi lo → '%' ∉ t := fun h hm =>
    hex_not_sep (h.2.2.1 _ hm) (.inr (.inr rfl))
  induction h with
  | group _ h => exact hx h
  | quad h =>
    intro hm
    rcases ipv4Text_chars _ _ hm with h | h
    · exact hex_not_sep h (.inr (.inr rfl))
    · cases h
  | cons h _ ih =>
    intro hm
    simp only [List.mem_append, List.mem_cons, Char.reduceEq, false_or] at hm
    rcases hm with hm | hm
    · exact hx h hm
    · exact ih hm

theorem denotes_chars {s : List Char} {b : List UInt8} (h : Denotes s b) : '%' ∉ s := by
  have hs : ∀ {q : Bool} {s : List Char} {b : List UInt8}, Side q s b → '%' ∉ s := by
    rintro q s b (⟨rfl, _⟩ | h)
    · simp
    · exact pieces_chars h
  obtain ⟨_, h | ⟨l, bl, r, br, hl, hr, rfl, _⟩⟩ := h
  · exact pieces_chars h
  · intro hm
    simp only [List.mem_append, List.mem_cons, Char.reduceEq, false_or] at hm
    rcases hm with hm | hm
    · exact hs hl hm
    · exact hs hr hm

theorem denotes_colon {s : List Char} {b : List UInt8} (h : Denotes s b) : ∃ t r, s = t ++ ':' :: r ∧ ∀ c ∈ t, isHex c = true := by
  obtain ⟨hb, h | ⟨l, bl, r, br, hl, hr, rfl, _⟩⟩ := h
  · cases h with
    | group => cases hb
    | quad h => omega
    | cons h _ => exact ⟨_, _, rfl, h.2.2.1⟩
  · rcases hl with ⟨rfl, _⟩ | hl
    · exact ⟨[], _, rfl, by simp⟩
    · cases hl with
      | group _ h => exact ⟨_, _, rfl, h.2.2.1⟩
      | cons h _ => exact ⟨_, _, by rw [List.append_assoc]; rfl, h.2.2.1⟩

theorem zone_split (s : List Char) : ('%' ∉ s ∧ s.dropWhile (· ≠ '%') = []) ∨
    ∃ z, s = s.takeWhile (· ≠ '%') ++ '%' :: z ∧ s.dropWhile (· ≠ '%') = '%' :: z ∧ '%' ∉ s.takeWhile (· ≠ '%') := by
  induction s with
  | nil => exact .inl ⟨by simp, rfl⟩
  | cons c s ih =>
    by_cases hc : c = '%'
    · subst hc
      exact .inr ⟨s, by simp, by simp, by simp⟩
    · rcases ih with ⟨h1, h2⟩ | ⟨z, h1, h2, h3⟩
      · refine .inl ⟨?_, by simp [hc]; simpa using h2⟩
        intro hm
        rcases List.mem_cons.mp hm with e | e
        · exact hc e.symm
        · exact h1 e
      · refine .inr ⟨z, ?_, by simp [hc]; simpa using h2, ?_⟩
        · simp only [List.takeWhile_cons, ne_eq, hc, not_false_eq_true, decide_true, if_true, List.cons_append]
          rw [← h1]
        · simp only [List.takeWhile_cons, ne_eq, hc, not_false_eq_true, decide_true, if_true, List.mem_cons, not_or]
          exact ⟨fun e => hc e.symm, h3⟩

theorem split_unique {a a' z z' : List Char} (h : a ++ '%' :: z = a' ++ '%' :: z') (ha : '%' ∉ a) (ha' : '%' ∉ a') : a = a' ∧ z = z' := by
  induction a generalizing a' with
  | nil =>
    cases a' with
    | nil => simpa using h
    | cons c a' => simp at h; exact absurd h.1 (fun e => ha' (List.mem_cons.mpr (.inl e)))
  | cons c a ih =>
    cases a' with
    | nil => simp at h; exact absurd h.1 (fun e => ha (by simp [e]))
    | cons d a' =>
      simp only [List.cons_append, List.cons.injEq] at h
      have := ih h.2 (fun hm => ha (by simp [hm])) (fun hm => ha' (by simp [hm]))
      exact ⟨by rw [h.1, this.1], this.2⟩

theorem parse6_iff (s : List Char) (b : List UInt8) :
    parse6 s = some b ↔ Denotes s b ∨ ∃ a z, s = a ++ '%' :: z ∧ z ≠ [] ∧ Denotes a b := by
  unfold parse6
  rcases zone_split s with ⟨h1, h2⟩ | ⟨z, h1, h2, h3⟩
  · rw [h2]
    simp only
    rw [body_iff]
    constructor
    · exact .inl
    · rintro (h | ⟨a, z, rfl, _⟩)
      · exact h
      · exact absurd (by simp) h1
  · rw [h2]
    simp only
    have hx : ¬ Denotes s b := fun h => denotes_chars h (by rw [h1]; simp)
    generalize s.takeWhile (fun c => decide (c ≠ '%')) = a at h1 h3 ⊢
    by_cases hz : z = []
    · rw [if_pos hz]
      constructor
      · intro h; cases h
      · rintro (h | ⟨a', z', h4, h5, h6⟩)
        · exact absurd h hx
        · rw [h1] at h4
          exact absurd (hz ▸ (split_unique h4 h3 (denotes_chars h6)).2.symm) h5
    · rw [if_neg hz, body_iff]
      constructor
      · intro h; exact .inr ⟨a, z, h1, hz, h⟩
      · rintro (h | ⟨a', z', h4, h5, h6⟩)
        · exact absurd h hx
        · rw [h1] at h4
          rw [(split_unique h4 h3 (denotes_chars h6)).1]; exact h6

theorem find_colon : ∀ {t : List Char}, (∀ c ∈ t, isHex c = true) → ∀ r,
    (t ++ ':' :: r).find? (fun c => decide (c = '.' ∨ c = ':' ∨ c = '%')) = some ':'
  | [], _, _ => rfl
  | c :: t, h, r => by
    rw [List.cons_append, List.find?_cons_of_neg (by simpa using hex_not_sep (h c (by simp)))]
    exact find_colon (fun c hc => h c (by simp [hc])) r

/-- **C224** NET.IP_FROM_STRING reads the texts of RFC 4291 and the IPv4 addresses in decimal, and nothing else. -/
def C224_full : Prop := ∀ (s : List Char) (b : List UInt8),
  ipFromString parse6 s = .ok b ↔ (b.length = 4 ∧ s = ipv4Text b) ∨ Denotes s b

/-- **C224** exactly what is read: a text with a zone is read too, and the zone is dropped. -/
theorem C224_zone_partial (s : List Char) (b : List UInt8) :
    ipFromString parse6 s = .ok b ↔
      (b.length = 4 ∧ s = ipv4Text b) ∨ Denotes s b ∨ ∃ a z, s = a ++ '%' :: z ∧ z ≠ [] ∧ Denotes a b := by
  have e : ipFromString parse6 s = .ok b ↔ parseAddr parse6 s = some b := by
    unfold ipFromString
    cases parseAddr parse6 s <;> simp
  rw [e]
  constructor
  · intro h
    unfold parseAddr at h
    split at h
    · split at h
      · exact .inl ((ipv4_parse _ _).mp h)
      · split at h
        · exact .inr ((parse6_iff _ _).mp h)
        · cases h
    · cases h
  · intro h
    rcases h with ⟨h1, rfl⟩ | h
    · obtain ⟨s, h2, h3, _⟩ := C68_text_roundtrip (fun _ => []) parse6 b h1
      simp only [ipToString, h1, if_true, Res.ok.injEq] at h2
      subst h2
      unfold ipFromString at h3
      split at h3
      · rename_i e; cases h3; exact e
      · cases h3
    · have hc : ∃ t r, s = t ++ ':' :: r ∧ ∀ c ∈ t, isHex c = true := by
        rcases h with h | ⟨a, z, rfl, _, h⟩
        · exact denotes_colon h
        · obtain ⟨t, r, rfl, ht⟩ := denotes_colon h
          exact ⟨t, r ++ '%' :: z, by simp, ht⟩
      obtain ⟨t, r, e, ht⟩ := hc
      unfold parseAddr
      rw [e, find_colon ht, ← e]
      exact (parse6_iff _ _).mpr h

/-- **C224** for texts without a percent sign. -/
theorem C224_partial (s : List Char) (hs : '%' ∉ s) (b : List UInt8) :
    ipFromString parse6 s = .ok b ↔ (b.length = 4 ∧ s = ipv4Text b) ∨ Denotes s b := by
  rw [C224_zone_partial]
  constructor
  · rintro (h | h | ⟨a, z, rfl, _⟩)
    · exact .inl h
    · exact .inr h
    · exact absurd (by simp) hs
  · rintro (h | h)
    · exact .inl h
    · exact .inr (.inl h)

/-- NET.IP_FROM_STRING('fe80::1%eth0') should be an error. -/
theorem C224_full_false : ¬ C224_full := fun h => by
  have h1 : ipFromString parse6 "::%eth0".toList = .ok (List.replicate 16 0) := by decide +kernel
  rcases (h _ _).mp h1 with ⟨h2, _⟩ | h2
  · cases h2
  · exact denotes_chars h2 (by decide)

/-- Every text has at most one meaning. -/
theorem denotes_unique {s : List Char} {b b' : List UInt8} (h : Denotes s b) (h' : Denotes s b') : b = b' := by
  have h1 := body_complete h
  rw [body_complete h'] at h1
  exact (Option.some.inj h1).symm

end Verif.Net
