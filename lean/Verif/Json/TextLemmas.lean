import Verif.Json.Text
import Verif.Proto.Lemmas

namespace Verif.Json

/-! ### Numbers -/

/-- what may follow a number. -/
def Stop (r : List Char) : Prop := ∀ c, r.head? = some c → isDigit c = false ∧ c ≠ '.' ∧ c ≠ 'e' ∧ c ≠ 'E'

theorem digit_toNat {n : Nat} (h : n < 10) : (digit n).toNat = 48 + n := by
  match n, h with
  | 0, _ | 1, _ | 2, _ | 3, _ | 4, _ | 5, _ | 6, _ | 7, _ | 8, _ | 9, _ => rfl

theorem isDigit_digit {n : Nat} (h : n < 10) : isDigit (digit n) = true := by
  simp only [isDigit, digit_toNat h, Bool.and_eq_true, decide_eq_true_eq]; omega

theorem digits_lt {n : Nat} (h : n < 10) : digits n = [digit n] := by rw [digits, if_pos h]

theorem digits_ge {n : Nat} (h : ¬ n < 10) : digits n = digits (n / 10) ++ [digit (n % 10)] := by
  conv => lhs; rw [digits, if_neg h]

theorem readDigits_digits : ∀ (n acc : Nat) (rest : List Char),
    readDigits acc (digits n ++ rest) = readDigits (acc * 10 ^ (digits n).length + n) rest := by
  intro n
  induction n using Nat.strongRecOn with
  | ind n ih =>
    intro acc rest
    by_cases h : n < 10
    · rw [digits_lt h]
      simp only [List.cons_append, List.nil_append, readDigits, isDigit_digit h, if_true, digit_toNat h,
        List.length_singleton, Nat.pow_one]
      congr 1; omega
    · rw [digits_ge h, List.append_assoc, ih (n / 10) (by omega)]
      have h10 : n % 10 < 10 := by omega
      simp only [List.cons_append, List.nil_append, readDigits, isDigit_digit h10, if_true, digit_toNat h10,
        List.length_append, List.length_singleton, Nat.pow_succ]
      congr 1
      rw [Nat.add_mul, Nat.mul_assoc]
      omega

theorem readDigits_stop (acc : Nat) (rest : List Char) (h : Stop rest) : readDigits acc rest = (acc, rest) := by
  cases rest with
  | nil => rfl
  | cons c cs => simp [readDigits, (h c rfl).1]

theorem digits_head : ∀ (n : Nat), ∃ k cs, k < 10 ∧ digits n = digit k :: cs ∧ (k = 0 → n = 0 ∧ cs = []) := by
  intro n
  induction n using Nat.strongRecOn with
  | ind n ih =>
    by_cases h : n < 10
    · exact ⟨n, [], h, digits_lt h, fun h0 => ⟨h0, rfl⟩⟩
    · obtain ⟨k, cs, hk, he, h0⟩ := ih (n / 10) (by omega)
      refine ⟨k, cs ++ [digit (n % 10)], hk, by rw [digits_ge h, he]; rfl, fun hk0 => ?_⟩
      have := (h0 hk0).1
      omega

theorem readNat_digits (n : Nat) (rest : List Char) (h : Stop rest) :
    readNat (digits n ++ rest) = some (n, rest) := by
  obtain ⟨k, cs, hk, he, h0⟩ := digits_head n
  have hr : readDigits 0 (digits n ++ rest) = (n, rest) := by
    rw [readDigits_digits, readDigits_stop _ _ h]; simp
  rw [he, List.cons_append] at hr ⊢
  have hz : ¬ (digit k = '0' ∧ (cs ++ rest).head?.any isDigit = true) := by
    rintro ⟨h1, h2⟩
    have hk0 : k = 0 := by
      have := congrArg Char.toNat h1
      rw [digit_toNat hk] at this
      have e : ('0' : Char).toNat = 48 := rfl
      omega
    rw [(h0 hk0).2, List.nil_append] at h2
    cases rest with
    | nil => simp at h2
    | cons c r => simp [(h c rfl).1] at h2
  have hf : rest.head?.any (fun x => decide (x = '.' ∨ x = 'e' ∨ x = 'E')) = false := by
    cases rest with
    | nil => rfl
    | cons c r => simp [(h c rfl).2.1, (h c rfl).2.2.1, (h c rfl).2.2.2]
  simp only [readNat, isDigit_digit hk, if_true, hr, if_neg hz, hf]
  simp

/-! ### Strings -/

theorem hexVal_hexDigit {n : Nat} (h : n < 16) : hexVal (hexDigit n) = some n := by
  match n, h with
  | 0, _ | 1, _ | 2, _ | 3, _ | 4, _ | 5, _ | 6, _ | 7, _ | 8, _ | 9, _ | 10, _ | 11, _ | 12, _ | 13, _ | 14, _ | 15, _ => rfl
  | n + 16, h => omega

theorem char_ofNat_toNat (c : Char) : Char.ofNat c.toNat = c := Char.ofNat_toNat c

theorem readUnicode_low (c : Char) (h : c.toNat < 32) (r : List Char) :
    readUnicode ('0' :: '0' :: hexDigit (c.toNat / 16) :: hexDigit (c.toNat % 16) :: r) = some (c, r) := by
  have h1 : hexVal '0' = some 0 := rfl
  have h4 : readHex4 ('0' :: '0' :: hexDigit (c.toNat / 16) :: hexDigit (c.toNat % 16) :: r) = some (c.toNat, r) := by
    simp only [readHex4, h1, hexVal_hexDigit (show c.toNat / 16 < 16 by omega),
      hexVal_hexDigit (show c.toNat % 16 < 16 by omega), Option.some.injEq, Prod.mk.injEq, and_true]
    omega
  simp only [readUnicode, h4]
  rw [if_neg (by omega), if_neg (by omega), char_ofNat_toNat]

theorem ofNat_of_toNat {c : Char} {n : Nat} (h : c.toNat = n) : Char.ofNat n = c := by
  rw [← h, char_ofNat_toNat]

/-- one character of a string, escaped, then read. -/
theorem readStr_escape (c : Char) (f : Nat) (r : List Char) :
    readStr (f + 1) (escape c ++ r) = (readStr f r).map fun (s, r') => (c :: s, r') := by
  unfold escape
  split
  · rename_i h; subst h; rfl
  split
  · rename_i h; subst h; rfl
  split
  · rename_i h; rw [← ofNat_of_toNat h]; rfl
  split
  · rename_i h; rw [← ofNat_of_toNat h]; rfl
  split
  · rename_i h; rw [← ofNat_of_toNat h]; rfl
  split
  · rename_i h; rw [← ofNat_of_toNat h]; rfl
  split
  · rename_i h; rw [← ofNat_of_toNat h]; rfl
  split
  · rename_i h
    have := readUnicode_low c h r
    simp only [List.cons_append, List.nil_append, readStr]
    rw [if_neg (by decide)]
    simp only [if_true]
    have he : ∀ x, readEscape ('u' :: x) = readUnicode x := fun _ => rfl
    rw [he, this]
  · rename_i h1 h2 _ _ _ _ _ h3
    simp only [List.cons_append, List.nil_append, readStr]
    rw [if_neg h1, if_neg h2, if_neg h3]

theorem readStr_print (s : List Char) : ∀ (f : Nat) (rest : List Char), s.length < f →
    readStr f (s.flatMap escape ++ '"' :: rest) = some (s, rest) := by
  induction s with
  | nil =>
    intro f rest h
    cases f with
    | zero => simp at h
    | succ f => simp [readStr]
  | cons c s ih =>
    intro f rest h
    cases f with
    | zero => simp at h
    | succ f =>
      rw [List.flatMap_cons, List.append_assoc, readStr_escape, ih f rest (by simpa using h)]
      rfl

theorem escape_len (c : Char) : 1 ≤ (escape c).length := by
  unfold escape
  repeat' split
  all_goals simp

theorem flatMap_escape_len (s : List Char) : s.length ≤ (s.flatMap escape).length := by
  induction s with
  | nil => simp
  | cons c s ih =>
    have := escape_len c
    simp only [List.flatMap_cons, List.length_append, List.length_cons]
    omega

theorem readStr_printed (s rest : List Char) :
    readStr ((s.flatMap escape ++ '"' :: rest).length + 1) (s.flatMap escape ++ '"' :: rest) = some (s, rest) := by
  apply readStr_print
  have := flatMap_escape_len s
  simp only [List.length_append]
  omega

/-! ### Values -/

mutual
/-- how deep the arrays and objects of a value are nested. -/
def depth : Json → Nat
  | .arr xs => depthElems xs + 1
  | .obj ms => depthMembers ms + 1
  | _ => 0

def depthElems : List Json → Nat
  | [] => 0
  | x :: xs => max (depth x) (depthElems xs)

def depthMembers : List (List Char × Json) → Nat
  | [] => 0
  | (_, x) :: ms => max (depth x) (depthMembers ms)
end

theorem skipWs_of (c : Char) (cs : List Char) (h : ¬ (c = ' ' ∨ c = '\n' ∨ c = '\t' ∨ c = '\r')) :
    skipWs (c :: cs) = c :: cs := by rw [skipWs, if_neg h]

/-- the first character of a printed value is no white space and does not close an array. -/
theorem print_head (j : Json) : ∃ c cs, print j = c :: cs ∧ ¬ (c = ' ' ∨ c = '\n' ∨ c = '\t' ∨ c = '\r') ∧ c ≠ ']' := by
  cases j with
  | null => exact ⟨_, _, by rw [print], by decide, by decide⟩
  | bool b => cases b <;> exact ⟨_, _, by rw [print], by decide, by decide⟩
  | num i =>
    obtain ⟨k, cs, hk, he, -⟩ := digits_head i.natAbs
    rw [print, printInt]
    split
    · exact ⟨_, _, rfl, by decide, by decide⟩
    · refine ⟨digit k, cs, he, ?_, ?_⟩
      · match k, hk with
        | 0, _ | 1, _ | 2, _ | 3, _ | 4, _ | 5, _ | 6, _ | 7, _ | 8, _ | 9, _ => decide
      · match k, hk with
        | 0, _ | 1, _ | 2, _ | 3, _ | 4, _ | 5, _ | 6, _ | 7, _ | 8, _ | 9, _ => decide
  | str s => exact ⟨_, _, by rw [print, printStr], by decide, by decide⟩
  | arr xs => cases xs <;> exact ⟨_, _, by rw [print], by decide, by decide⟩
  | obj ms =>
    cases ms with
    | nil => exact ⟨_, _, by rw [print], by decide, by decide⟩
    | cons m ms => obtain ⟨k, x⟩ := m; exact ⟨_, _, by rw [print], by decide, by decide⟩

theorem stop_nil : Stop [] := by intro c h; simp at h
theorem stop_of {c : Char} (cs : List Char) (h : isDigit c = false ∧ c ≠ '.' ∧ c ≠ 'e' ∧ c ≠ 'E') : Stop (c :: cs) := by
  intro d hd
  simp only [List.head?_cons, Option.some.injEq] at hd
  subst hd; exact h

theorem stop_elems (xs : List Json) (rest : List Char) : Stop (printElems xs ++ rest) := by
  cases xs <;> (rw [printElems]; exact stop_of _ (by decide))

theorem stop_members (ms : List (List Char × Json)) (rest : List Char) : Stop (printMembers ms ++ rest) := by
  cases ms with
  | nil => rw [printMembers]; exact stop_of _ (by decide)
  | cons m ms => obtain ⟨k, x⟩ := m; rw [printMembers]; exact stop_of _ (by decide)

theorem readValue_num (f d : Nat) (i : Int) (rest : List Char) (h : Stop rest) :
    readValue (f + 1) d (printInt i ++ rest) = some (.num i, rest) := by
  unfold printInt
  split
  · rename_i hi
    rw [List.cons_append, readValue, skipWs_of _ _ (by decide)]
    simp only [readNat_digits _ _ h, Option.bind_some]
    rw [if_neg (by omega)]
    simp only [Option.some.injEq, Prod.mk.injEq, Json.num.injEq, and_true]
    omega
  · rename_i hi
    have hn := readNat_digits i.natAbs rest h
    obtain ⟨k, cs, hk, he, -⟩ := digits_head i.natAbs
    rw [he] at hn ⊢
    have hi' : ((i.natAbs : Nat) : Int) = i := by omega
    rw [List.cons_append] at hn ⊢
    rw [readValue]
    match k, hk with
    | 0, _ | 1, _ | 2, _ | 3, _ | 4, _ | 5, _ | 6, _ | 7, _ | 8, _ | 9, _ =>
      rw [skipWs_of _ _ (by decide)]
      show (readNat _).map _ = _
      rw [hn]
      simp only [Option.map_some, hi']

mutual
theorem readValue_print : ∀ (j : Json) (f d : Nat) (rest : List Char), 2 * (print j).length ≤ f → depth j < d →
    Stop rest → readValue f d (print j ++ rest) = some (j, rest)
  | .null, f, d, rest, hf, hd, hs => by
    rw [print] at hf ⊢
    obtain ⟨f, rfl⟩ : ∃ g, f = g + 1 := ⟨f - 1, by simp at hf; omega⟩
    rw [List.cons_append, readValue, skipWs_of _ _ (by decide)]
    simp [expect]
  | .bool true, f, d, rest, hf, hd, hs => by
    rw [print] at hf ⊢
    obtain ⟨f, rfl⟩ : ∃ g, f = g + 1 := ⟨f - 1, by simp at hf; omega⟩
    rw [List.cons_append, readValue, skipWs_of _ _ (by decide)]
    simp [expect]
  | .bool false, f, d, rest, hf, hd, hs => by
    rw [print] at hf ⊢
    obtain ⟨f, rfl⟩ : ∃ g, f = g + 1 := ⟨f - 1, by simp at hf; omega⟩
    rw [List.cons_append, readValue, skipWs_of _ _ (by decide)]
    simp [expect]
  | .num i, f, d, rest, hf, hd, hs => by
    have hp : 1 ≤ (printInt i).length := by
      obtain ⟨c, cs, h, -⟩ := print_head (.num i)
      rw [print] at h; rw [h]; simp
    rw [print] at hf ⊢
    obtain ⟨f, rfl⟩ : ∃ g, f = g + 1 := ⟨f - 1, by omega⟩
    exact readValue_num f d i rest hs
  | .str s, f, d, rest, hf, hd, hs => by
    rw [print, printStr] at hf ⊢
    obtain ⟨f, rfl⟩ : ∃ g, f = g + 1 := ⟨f - 1, by simp at hf; omega⟩
    rw [List.cons_append, readValue, skipWs_of _ _ (by decide)]
    have := readStr_printed s rest
    simp only [List.append_assoc, List.cons_append, List.nil_append]
    rw [this]; rfl
  | .arr [], f, d, rest, hf, hd, hs => by
    rw [print] at hf ⊢
    obtain ⟨f, rfl⟩ : ∃ g, f = g + 1 := ⟨f - 1, by simp at hf; omega⟩
    rw [List.cons_append, readValue, skipWs_of _ _ (by decide)]
    have hd' : ¬ d ≤ 1 := by simp only [depth, depthElems] at hd; omega
    simp only [if_neg hd']
    rw [List.cons_append, skipWs_of _ _ (by decide)]
    rfl
  | .arr (x :: xs), f, d, rest, hf, hd, hs => by
    rw [print] at hf ⊢
    simp only [List.length_cons, List.length_append] at hf
    simp only [depth, depthElems] at hd
    obtain ⟨f, rfl⟩ : ∃ g, f = g + 1 := ⟨f - 1, by omega⟩
    rw [List.cons_append, List.append_assoc, readValue, skipWs_of _ _ (by decide)]
    have hd' : ¬ d ≤ 1 := by omega
    simp only [if_neg hd']
    have h1 := readValue_print x f (d - 1) (printElems xs ++ rest) (by omega) (by omega) (stop_elems xs rest)
    have h2 := readElems_print xs f (d - 1) rest (by omega) (by omega)
    obtain ⟨c, cs, hc, hw, hb⟩ := print_head x
    rw [hc, List.cons_append] at h1 ⊢
    rw [skipWs_of _ _ hw]
    split
    · rename_i h; simp only [List.cons.injEq] at h; exact absurd h.1 hb
    · rw [h1]; simp only [Option.bind_some, h2, Option.map_some]
  | .obj [], f, d, rest, hf, hd, hs => by
    rw [print] at hf ⊢
    obtain ⟨f, rfl⟩ : ∃ g, f = g + 1 := ⟨f - 1, by simp at hf; omega⟩
    rw [List.cons_append, readValue, skipWs_of _ _ (by decide)]
    have hd' : ¬ d ≤ 1 := by simp only [depth, depthMembers] at hd; omega
    simp only [if_neg hd']
    rw [List.cons_append, skipWs_of _ _ (by decide)]
    rfl
  | .obj ((k, x) :: ms), f, d, rest, hf, hd, hs => by
    rw [print] at hf ⊢
    simp only [List.length_cons, List.length_append] at hf
    simp only [depth, depthMembers] at hd
    have hk : 2 ≤ (printStr k).length := by simp [printStr]
    obtain ⟨f, rfl⟩ : ∃ g, f = g + 2 := ⟨f - 2, by omega⟩
    rw [List.cons_append, readValue, skipWs_of _ _ (by decide)]
    have hd' : ¬ d ≤ 1 := by omega
    simp only [if_neg hd']
    have h1 := readValue_print x f (d - 1) (printMembers ms ++ rest) (by omega) (by omega) (stop_members ms rest)
    have h2 := readMembers_print ms (f + 1) (d - 1) rest (by omega) (by omega)
    have h3 : readMember (f + 1) (d - 1) (printStr k ++ (':' :: (print x ++ printMembers ms)) ++ rest) =
        some ((k, x), printMembers ms ++ rest) := by
      rw [printStr, List.append_assoc, List.cons_append, readMember, skipWs_of _ _ (by decide)]
      simp only [List.append_assoc, List.cons_append, List.nil_append]
      rw [readStr_printed]
      simp only [Option.bind_some]
      rw [skipWs_of _ _ (by decide)]
      simp only [h1, Option.map_some]
    have hq : ∃ cs, (printStr k ++ (':' :: (print x ++ printMembers ms)) ++ rest) = '"' :: cs := ⟨_, rfl⟩
    obtain ⟨cs, hq⟩ := hq
    rw [hq] at h3 ⊢
    rw [skipWs_of _ _ (by decide)]
    show (readMember (f + 1) (d - 1) ('"' :: cs)).bind _ = _
    rw [h3]
    simp only [Option.bind_some, h2, Option.map_some]

theorem readElems_print : ∀ (xs : List Json) (f d : Nat) (rest : List Char), 2 * (printElems xs).length ≤ f →
    depthElems xs < d → readElems f d (printElems xs ++ rest) = some (xs, rest)
  | [], f, d, rest, hf, hd => by
    rw [printElems] at hf ⊢
    obtain ⟨f, rfl⟩ : ∃ g, f = g + 1 := ⟨f - 1, by simp at hf; omega⟩
    rw [List.cons_append, readElems, skipWs_of _ _ (by decide)]
    rfl
  | x :: xs, f, d, rest, hf, hd => by
    rw [printElems] at hf ⊢
    simp only [List.length_cons, List.length_append] at hf
    simp only [depthElems] at hd
    obtain ⟨f, rfl⟩ : ∃ g, f = g + 1 := ⟨f - 1, by omega⟩
    rw [List.cons_append, List.append_assoc, readElems, skipWs_of _ _ (by decide)]
    have h1 := readValue_print x f d (printElems xs ++ rest) (by omega) (by omega) (stop_elems xs rest)
    have h2 := readElems_print xs f d rest (by omega) (by omega)
    simp only [h1, Option.bind_some, h2, Option.map_some]

theorem readMembers_print : ∀ (ms : List (List Char × Json)) (f d : Nat) (rest : List Char),
    2 * (printMembers ms).length ≤ f → depthMembers ms < d → readMembers f d (printMembers ms ++ rest) = some (ms, rest)
  | [], f, d, rest, hf, hd => by
    rw [printMembers] at hf ⊢
    obtain ⟨f, rfl⟩ : ∃ g, f = g + 1 := ⟨f - 1, by simp at hf; omega⟩
    rw [List.cons_append, readMembers, skipWs_of _ _ (by decide)]
    rfl
  | (k, x) :: ms, f, d, rest, hf, hd => by
    rw [printMembers] at hf ⊢
    simp only [List.length_cons, List.length_append] at hf
    simp only [depthMembers] at hd
    have hk : 2 ≤ (printStr k).length := by simp [printStr]
    obtain ⟨f, rfl⟩ : ∃ g, f = g + 2 := ⟨f - 2, by omega⟩
    rw [List.cons_append, readMembers, skipWs_of _ _ (by decide)]
    have h1 := readValue_print x f d (printMembers ms ++ rest) (by omega) (by omega) (stop_members ms rest)
    have h2 := readMembers_print ms (f + 1) d rest (by omega) (by omega)
    have h3 : readMember (f + 1) d (printStr k ++ (':' :: (print x ++ printMembers ms)) ++ rest) =
        some ((k, x), printMembers ms ++ rest) := by
      rw [printStr, List.append_assoc, List.cons_append, readMember, skipWs_of _ _ (by decide)]
      simp only [List.append_assoc, List.cons_append, List.nil_append]
      rw [readStr_printed]
      simp only [Option.bind_some]
      rw [skipWs_of _ _ (by decide)]
      simp only [h1, Option.map_some]
    simp only [h3, Option.bind_some, h2, Option.map_some]
end

theorem parse_print (j : Json) (h : depth j < 128) : parse (print j) = some j := by
  unfold parse
  have := readValue_print j (2 * (print j).length + 2) 128 [] (by omega) h stop_nil
  rw [List.append_nil] at this
  rw [this]
  simp [skipWs]

theorem ofBytes_toBytes (cs : List Char) : ofBytes (toBytes cs) = some cs := by
  unfold ofBytes toBytes
  rw [Proto.bytesStr_strBytes]
  simp

/-! ### Values that are nested too deeply -/

mutual
theorem readValue_deep : ∀ (j : Json) (f d : Nat) (rest : List Char), 2 * (print j).length ≤ f → 1 ≤ d → d ≤ depth j →
    readValue f d (print j ++ rest) = none
  | .null, f, d, rest, hf, h1, hd => by simp only [depth] at hd; omega
  | .bool b, f, d, rest, hf, h1, hd => by simp only [depth] at hd; omega
  | .num i, f, d, rest, hf, h1, hd => by simp only [depth] at hd; omega
  | .str s, f, d, rest, hf, h1, hd => by simp only [depth] at hd; omega
  | .arr [], f, d, rest, hf, h1, hd => by
    rw [print] at hf ⊢
    obtain ⟨f, rfl⟩ : ∃ g, f = g + 1 := ⟨f - 1, by simp at hf; omega⟩
    rw [List.cons_append, readValue, skipWs_of _ _ (by decide)]
    have hd' : d ≤ 1 := by simp only [depth, depthElems] at hd; omega
    simp only [if_pos hd']
  | .arr (x :: xs), f, d, rest, hf, h1, hd => by
    rw [print] at hf ⊢
    simp only [List.length_cons, List.length_append] at hf
    simp only [depth, depthElems] at hd
    obtain ⟨f, rfl⟩ : ∃ g, f = g + 1 := ⟨f - 1, by omega⟩
    rw [List.cons_append, List.append_assoc, readValue, skipWs_of _ _ (by decide)]
    by_cases hd' : d ≤ 1
    · simp only [if_pos hd']
    simp only [if_neg hd']
    have hx : d - 1 ≤ depth x → readValue f (d - 1) (print x ++ (printElems xs ++ rest)) = none := fun h =>
      readValue_deep x f (d - 1) _ (by omega) (by omega) h
    have hy : ¬ d - 1 ≤ depth x →
        readValue f (d - 1) (print x ++ (printElems xs ++ rest)) = some (x, printElems xs ++ rest) ∧
        readElems f (d - 1) (printElems xs ++ rest) = none := fun h =>
      ⟨readValue_print x f (d - 1) _ (by omega) (by omega) (stop_elems xs rest),
        readElems_deep xs f (d - 1) rest (by omega) (by omega) (by omega)⟩
    obtain ⟨c, cs, hc, hw, hb⟩ := print_head x
    rw [hc, List.cons_append] at hx hy ⊢
    rw [skipWs_of _ _ hw]
    split
    · rename_i h; simp only [List.cons.injEq] at h; exact absurd h.1 hb
    · by_cases h : d - 1 ≤ depth x
      · rw [hx h]; rfl
      · rw [(hy h).1]; simp only [Option.bind_some, (hy h).2, Option.map_none]
  | .obj [], f, d, rest, hf, h1, hd => by
    rw [print] at hf ⊢
    obtain ⟨f, rfl⟩ : ∃ g, f = g + 1 := ⟨f - 1, by simp at hf; omega⟩
    rw [List.cons_append, readValue, skipWs_of _ _ (by decide)]
    have hd' : d ≤ 1 := by simp only [depth, depthMembers] at hd; omega
    simp only [if_pos hd']
  | .obj ((k, x) :: ms), f, d, rest, hf, h1, hd => by
    rw [print] at hf ⊢
    simp only [List.length_cons, List.length_append] at hf
    simp only [depth, depthMembers] at hd
    have hk : 2 ≤ (printStr k).length := by simp [printStr]
    obtain ⟨f, rfl⟩ : ∃ g, f = g + 2 := ⟨f - 2, by omega⟩
    rw [List.cons_append, readValue, skipWs_of _ _ (by decide)]
    by_cases hd' : d ≤ 1
    · simp only [if_pos hd']
    simp only [if_neg hd']
    have h3 : readMember (f + 1) (d - 1) (printStr k ++ (':' :: (print x ++ printMembers ms)) ++ rest) =
        (readValue f (d - 1) (print x ++ (printMembers ms ++ rest))).map fun (x, r) => ((k, x), r) := by
      rw [printStr, List.append_assoc, List.cons_append, readMember, skipWs_of _ _ (by decide)]
      simp only [List.append_assoc, List.cons_append, List.nil_append]
      rw [readStr_printed]
      simp only [Option.bind_some]
      rw [skipWs_of _ _ (by decide)]
      rfl
    have hq : ∃ cs, (printStr k ++ (':' :: (print x ++ printMembers ms)) ++ rest) = '"' :: cs := ⟨_, rfl⟩
    obtain ⟨cs, hq⟩ := hq
    rw [hq] at h3 ⊢
    rw [skipWs_of _ _ (by decide)]
    show (readMember (f + 1) (d - 1) ('"' :: cs)).bind _ = _
    rw [h3]
    by_cases h : d - 1 ≤ depth x
    · rw [readValue_deep x f (d - 1) _ (by omega) (by omega) h]; rfl
    · rw [readValue_print x f (d - 1) _ (by omega) (by omega) (stop_members ms rest)]
      simp only [Option.map_some, Option.bind_some]
      rw [readMembers_deep ms (f + 1) (d - 1) rest (by omega) (by omega) (by omega)]; rfl

theorem readElems_deep : ∀ (xs : List Json) (f d : Nat) (rest : List Char), 2 * (printElems xs).length ≤ f → 1 ≤ d →
    d ≤ depthElems xs → readElems f d (printElems xs ++ rest) = none
  | [], f, d, rest, hf, h1, hd => by simp only [depthElems] at hd; omega
  | x :: xs, f, d, rest, hf, h1, hd => by
    rw [printElems] at hf ⊢
    simp only [List.length_cons, List.length_append] at hf
    simp only [depthElems] at hd
    obtain ⟨f, rfl⟩ : ∃ g, f = g + 1 := ⟨f - 1, by omega⟩
    rw [List.cons_append, List.append_assoc, readElems, skipWs_of _ _ (by decide)]
    by_cases h : d ≤ depth x
    · simp only [readValue_deep x f d _ (by omega) h1 h]; rfl
    · simp only [readValue_print x f d _ (by omega) (by omega) (stop_elems xs rest), Option.bind_some,
        readElems_deep xs f d rest (by omega) h1 (by omega), Option.map_none]

theorem readMembers_deep : ∀ (ms : List (List Char × Json)) (f d : Nat) (rest : List Char),
    2 * (printMembers ms).length ≤ f → 1 ≤ d → d ≤ depthMembers ms → readMembers f d (printMembers ms ++ rest) = none
  | [], f, d, rest, hf, h1, hd => by simp only [depthMembers] at hd; omega
  | (k, x) :: ms, f, d, rest, hf, h1, hd => by
    rw [printMembers] at hf ⊢
    simp only [List.length_cons, List.length_append] at hf
    simp only [depthMembers] at hd
    have hk : 2 ≤ (printStr k).length := by simp [printStr]
    obtain ⟨f, rfl⟩ : ∃ g, f = g + 2 := ⟨f - 2, by omega⟩
    rw [List.cons_append, readMembers, skipWs_of _ _ (by decide)]
    have h3 : readMember (f + 1) d (printStr k ++ (':' :: (print x ++ printMembers ms)) ++ rest) =
        (readValue f d (print x ++ (printMembers ms ++ rest))).map fun (x, r) => ((k, x), r) := by
      rw [printStr, List.append_assoc, List.cons_append, readMember, skipWs_of _ _ (by decide)]
      simp only [List.append_assoc, List.cons_append, List.nil_append]
      rw [readStr_printed]
      simp only [Option.bind_some]
      rw [skipWs_of _ _ (by decide)]
      rfl
    simp only [h3]
    by_cases h : d ≤ depth x
    · rw [readValue_deep x f d _ (by omega) h1 h]; rfl
    · rw [readValue_print x f d _ (by omega) (by omega) (stop_members ms rest)]
      simp only [Option.map_some, Option.bind_some]
      rw [readMembers_deep ms (f + 1) d rest (by omega) h1 (by omega)]; rfl
end

theorem parse_deep (j : Json) (h : 128 ≤ depth j) : parse (print j) = none := by
  unfold parse
  have := readValue_deep j (2 * (print j).length + 2) 128 [] (by omega) (by omega) h
  rw [List.append_nil] at this
  rw [this]
  rfl

end Verif.Json
