import Verif.Attrib
/-! Helper lemmas about decimal numbers and dates. -/
namespace Folia

theorem takeDigits_append (ds rest : List Char) (m : Nat) (hd : ∀ c ∈ ds, c.isDigit = true) (hm : ds.length ≤ m)
    (hr : ds.length = m ∨ rest = [] ∨ ∃ c r, rest = c :: r ∧ c.isDigit = false) : takeDigits m (ds ++ rest) = (ds, rest) := by
  induction ds generalizing m with
  | nil =>
    simp only [List.nil_append]
    cases m with
    | zero => rfl
    | succ m =>
      rcases hr with h | rfl | ⟨c, r, rfl, hc⟩
      · simp at h
      · rfl
      · simp [takeDigits, hc]
  | cons d ds ih =>
    obtain ⟨m, rfl⟩ : ∃ m', m = m' + 1 := ⟨m - 1, by simp at hm; omega⟩
    have hd' := hd d (by simp)
    have := ih m (fun c hc => hd c (by simp [hc])) (by simpa using hm) (by simpa using hr)
    simp [takeDigits, hd', this]

theorem toDigits_isDigit {n : Nat} {c : Char} (h : c ∈ Nat.toDigits 10 n) : c.isDigit = true :=
  Nat.isDigit_of_mem_toDigits (by decide) (by decide) h

theorem padNat_isDigit {w n : Nat} {c : Char} (h : c ∈ padNat w n) : c.isDigit = true := by
  simp only [padNat, List.mem_append, List.mem_replicate] at h
  rcases h with ⟨_, rfl⟩ | h
  · decide
  · exact toDigits_isDigit h

theorem padNat_ne_nil (w n : Nat) : padNat w n ≠ [] := by
  have : 0 < (Nat.toDigits 10 n).length := Nat.length_toDigits_pos
  intro h
  simp_all [padNat]

theorem ofDigitChars_padNat (w n : Nat) : Nat.ofDigitChars 10 (padNat w n) 0 = n := by
  simp [padNat, Nat.ofDigitChars_append, Nat.ofDigitChars_replicate_zero, Nat.ofDigitChars_ten_toDigits]

theorem padNat_length {w n : Nat} (hn : n < 10 ^ w) (hw : 0 < w) : (padNat w n).length = w := by
  have : (Nat.toDigits 10 n).length ≤ w := (Nat.length_toDigits_le_iff (by decide) hw).mpr hn
  simp [padNat]
  omega

theorem scanNumber_padNat (m w n : Nat) (rest : List Char) (hn : n < 2 ^ 63) (hm : (padNat w n).length ≤ m)
    (hr : (padNat w n).length = m ∨ rest = [] ∨ ∃ c r, rest = c :: r ∧ c.isDigit = false) :
    scanNumber m (padNat w n ++ rest) = some (n, rest) := by
  unfold scanNumber
  rw [takeDigits_append _ _ _ (fun c hc => padNat_isDigit hc) hm hr]
  have := padNat_ne_nil w n
  split
  · simp_all
  · rename_i heq
    simp only [Prod.mk.injEq] at heq
    obtain ⟨rfl, rfl⟩ := heq
    simp [ofDigitChars_padNat, hn]

theorem isDigit_not_isWs {c : Char} (h : c.isDigit = true) : isWs c = false := by
  simp only [Char.isDigit, ge_iff_le, Bool.and_eq_true, decide_eq_true_eq] at h
  have h1 : 48 ≤ c.toNat := h.1
  have h2 : c.toNat ≤ 57 := h.2
  simp [isWs]
  omega

theorem dropWhile_isWs_padNat (w n : Nat) (rest : List Char) : (padNat w n ++ rest).dropWhile isWs = padNat w n ++ rest := by
  cases h : padNat w n with
  | nil => exact absurd h (padNat_ne_nil w n)
  | cons c cs =>
    have : isWs c = false := isDigit_not_isWs (padNat_isDigit (w := w) (n := n) (by simp [h]))
    simp [this]

theorem scan2 (n : Nat) (hn : n < 100) (rest : List Char) : scanNumber 2 ((padNat 2 n ++ rest).dropWhile isWs) = some (n, rest) := by
  rw [dropWhile_isWs_padNat]
  have hl := padNat_length (w := 2) (n := n) (by omega) (by decide)
  exact scanNumber_padNat 2 2 n rest (by omega) (by omega) (Or.inl hl)

theorem parse_year (f : DTFields) (y : Int) (hy : -262144 ≤ y ∧ y ≤ 262143) (rest : List Char) :
    parseItem f (fmtYear y ++ '-' :: rest) .year = some ({ f with year := y }, '-' :: rest) := by
  unfold fmtYear
  split
  · rename_i h
    unfold parseItem
    rw [dropWhile_isWs_padNat]
    have hl := padNat_length (w := 4) (n := y.toNat) (by omega) (by decide)
    have hsc := scanNumber_padNat 4 4 y.toNat ('-' :: rest) (by omega) (by omega) (Or.inl hl)
    cases hp : padNat 4 y.toNat with
    | nil => exact absurd hp (padNat_ne_nil _ _)
    | cons c cs =>
      have hd : c.isDigit = true := padNat_isDigit (w := 4) (n := y.toNat) (by simp [hp])
      have h1 : c ≠ '-' := by rintro rfl; simp at hd
      have h2 : c ≠ '+' := by rintro rfl; simp at hd
      rw [hp] at hsc
      simp only [List.cons_append] at hsc ⊢
      split
      · simp_all
      · simp_all
      · rw [hsc]; simp; omega
  · split
    · rename_i h1 h2
      unfold parseItem
      have : ('+' :: padNat 4 y.toNat ++ '-' :: rest).dropWhile isWs = '+' :: padNat 4 y.toNat ++ '-' :: rest := by
        simp only [List.cons_append]; rw [List.dropWhile_cons]; rfl
      rw [this]
      simp only [List.cons_append]
      rw [scanNumber_padNat _ 4 y.toNat ('-' :: rest) (by omega) (by simp) (Or.inr (Or.inr ⟨'-', rest, rfl, by decide⟩))]
      simp; omega
    · rename_i h1 h2
      unfold parseItem
      have : ('-' :: padNat 4 (-y).toNat ++ '-' :: rest).dropWhile isWs = '-' :: padNat 4 (-y).toNat ++ '-' :: rest := by
        simp only [List.cons_append]; rw [List.dropWhile_cons]; rfl
      rw [this]
      simp only [List.cons_append]
      rw [scanNumber_padNat _ 4 (-y).toNat ('-' :: rest) (by omega) (by simp) (Or.inr (Or.inr ⟨'-', rest, rfl, by decide⟩))]
      simp; omega

/-- Date-times that the printed form can express: whole seconds, or the leap second 23:59:60-style value. -/
def DateTime.whole (d : DateTime) : Prop := d.nano = 0 ∨ (d.second = 59 ∧ d.nano = 1000000000)

theorem DateTime.daysIn_le (y : Int) (m : Nat) : daysIn y m ≤ 31 := by
  unfold daysIn
  split
  · split <;> omega
  · split <;> omega

theorem DateTime.parse_format (d : DateTime) (hv : d.valid = true) (hw : d.whole) : DateTime.parse fmtSeconds d.format = some d := by
  have hv' := hv
  simp only [DateTime.valid, Bool.and_eq_true, decide_eq_true_eq] at hv'
  obtain ⟨⟨⟨⟨⟨⟨⟨⟨⟨h1, h2⟩, h3⟩, h4⟩, h5⟩, h6⟩, h7⟩, h8⟩, h9⟩, h10⟩ := hv'
  have hday := DateTime.daysIn_le d.year d.month
  have hs : d.second + d.nano / 1000000000 < 100 := by omega
  have lit : ∀ (f : DTFields) (c : Char) (r : List Char), parseItem f (c :: r) (.lit [c]) = some (f, r) := by
    intro f c r; simp [parseItem]
  have e : d.format = fmtYear d.year ++ '-' :: (padNat 2 d.month ++ '-' :: (padNat 2 d.day ++ 'T' :: (padNat 2 d.hour ++ ':' ::
      (padNat 2 d.minute ++ ':' :: (padNat 2 (d.second + d.nano / 1000000000) ++ []))))) := by
    simp [DateTime.format]
  have items : parseItems {} d.format fmtSeconds = some (
      { year := d.year, month := d.month, day := d.day, hour := d.hour, minute := d.minute,
        second := d.second + d.nano / 1000000000 }, []) := by
    rw [e]
    have jm : ∀ (f : DTFields) (r : List Char), parseItem f (padNat 2 d.month ++ r) .month = some ({ f with month := d.month }, r) := by
      intro f r; simp only [parseItem, scan2 d.month (by omega), Option.map_some]
    have jd : ∀ (f : DTFields) (r : List Char), parseItem f (padNat 2 d.day ++ r) .day = some ({ f with day := d.day }, r) := by
      intro f r; simp only [parseItem, scan2 d.day (by omega), Option.map_some]
    have jh : ∀ (f : DTFields) (r : List Char), parseItem f (padNat 2 d.hour ++ r) .hour = some ({ f with hour := d.hour }, r) := by
      intro f r; simp only [parseItem, scan2 d.hour (by omega), Option.map_some]
    have jn : ∀ (f : DTFields) (r : List Char), parseItem f (padNat 2 d.minute ++ r) .minute = some ({ f with minute := d.minute }, r) := by
      intro f r; simp only [parseItem, scan2 d.minute (by omega), Option.map_some]
    have js : ∀ (f : DTFields) (r : List Char), parseItem f (padNat 2 (d.second + d.nano / 1000000000) ++ r) .second =
        some ({ f with second := d.second + d.nano / 1000000000 }, r) := by
      intro f r; simp only [parseItem, scan2 _ hs, Option.map_some]
    simp only [fmtSeconds, parseItems, parse_year _ _ ⟨h1, h2⟩, lit, jm, jd, jh, jn, js]
  simp only [DateTime.parse, items]
  rcases hw with hn | ⟨hsec, hn⟩
  · have : d.second + d.nano / 1000000000 = d.second := by omega
    rw [this]
    have h60 : d.second ≠ 60 := by omega
    simp only [h60, if_false]
    have hd : d = { year := d.year, month := d.month, day := d.day, hour := d.hour, minute := d.minute, second := d.second } := by
      cases d; simp_all
    rw [← hd, if_pos hv]
  · have : d.second + d.nano / 1000000000 = 60 := by omega
    rw [this]
    simp only [if_true]
    have hd : d = { year := d.year, month := d.month, day := d.day, hour := d.hour, minute := d.minute, second := 59, nano := 1000000000 } := by
      cases d; simp_all
    rw [← hd, if_pos hv]

theorem parseU16_toDigits (n : Nat) (hn : n < cap16) : parseU16 (String.ofList (Nat.toDigits 10 n)) = some n := by
  have hne : Nat.toDigits 10 n ≠ [] := by
    have : 0 < (Nat.toDigits 10 n).length := Nat.length_toDigits_pos
    intro h; simp [h] at this
  have htd := takeDigits_append (Nat.toDigits 10 n) [] (Nat.toDigits 10 n).length (fun c hc => toDigits_isDigit hc) (Nat.le_refl _) (Or.inl rfl)
  rw [List.append_nil] at htd
  have hcs : stripPlus (Nat.toDigits 10 n) = Nat.toDigits 10 n := by
    unfold stripPlus
    split
    · rename_i r h
      have : ('+' : Char).isDigit = true := toDigits_isDigit (n := n) (by rw [h]; simp)
      simp at this
    · rfl
  unfold parseU16
  rw [String.toList_ofList, hcs, htd]
  cases hd : Nat.toDigits 10 n with
  | nil => exact absurd hd hne
  | cons c cs =>
    simp only
    rw [← hd, Nat.ofDigitChars_ten_toDigits, if_pos hn]

end Folia
