import Verif.Spec.Auth
import Verif.Proof.FMap
/-! Helper lemmas for C47 and C48. -/

namespace Akasa

theorem splitChar_sep {c : Char} : ∀ (a b : Str), c ∉ a →
    splitChar c (a ++ c :: b) = a :: splitChar c b := by
  intro a
  induction a with
  | nil => intro b _; simp [splitChar]
  | cons x xs ih =>
    intro b h
    simp only [List.mem_cons, not_or] at h
    rw [List.cons_append, splitChar, if_neg (fun e => h.1 e.symm), ih b h.2]

theorem splitChar_last {c : Char} : ∀ (a : Str), c ∉ a → splitChar c a = [a] := by
  intro a
  induction a with
  | nil => intro _; rfl
  | cons x xs ih =>
    intro h
    simp only [List.mem_cons, not_or] at h
    rw [splitChar, if_neg (fun e => h.1 e.symm), ih h.2]

theorem rsplitOnce_none {c : Char} : ∀ (a : Str), c ∉ a → rsplitOnce c a = none := by
  intro a
  induction a with
  | nil => intro _; rfl
  | cons x xs ih =>
    intro h
    simp only [List.mem_cons, not_or] at h
    simp [rsplitOnce, ih h.2, Ne.symm h.1]

theorem rsplitOnce_sep {c : Char} : ∀ (a b : Str), c ∉ b →
    rsplitOnce c (a ++ c :: b) = some (a, b) := by
  intro a
  induction a with
  | nil => intro b h; simp [rsplitOnce, rsplitOnce_none b h]
  | cons x xs ih => intro b h; simp [rsplitOnce, ih b h]

theorem rsplitOnce_spec {c : Char} : ∀ {s a b : Str}, rsplitOnce c s = some (a, b) →
    s = a ++ c :: b := by
  intro s
  induction s with
  | nil => intro a b h; cases h
  | cons x xs ih =>
    intro a b h
    simp only [rsplitOnce] at h
    split at h
    · rename_i a' b' h'
      simp only [Option.some.injEq, Prod.mk.injEq] at h
      obtain ⟨rfl, rfl⟩ := h
      rw [ih h', List.cons_append]
    · split at h
      · rename_i e
        simp only [Option.some.injEq, Prod.mk.injEq] at h
        obtain ⟨rfl, rfl⟩ := h
        simp [e]
      · cases h

theorem dropWhile_head {p : Char → Bool} : ∀ {s : Str}, (∀ c, s.head? = some c → p c = false) →
    s.dropWhile p = s := by
  intro s h
  cases s with
  | nil => rfl
  | cons x xs => simp [List.dropWhile_cons, h x rfl]

theorem trim_id {s : Str} (h1 : ∀ c, s.head? = some c → isWs c = false)
    (h2 : ∀ c, s.getLast? = some c → isWs c = false) : trim s = s := by
  unfold trim
  rw [dropWhile_head h1, dropWhile_head (by simpa using h2), List.reverse_reverse]

theorem head_dropWhile {p : Char → Bool} (s : Str) {c : Char}
    (h : (s.dropWhile p).head? = some c) : p c = false := by
  induction s with
  | nil => simp at h
  | cons x xs ih =>
    rw [List.dropWhile_cons] at h
    split at h
    · exact ih h
    · rename_i hp
      simp only [List.head?_cons, Option.some.injEq] at h
      subst h
      simpa using hp

/-- The first character of a trimmed text is not blank. -/
theorem trim_head (s : Str) {c : Char} (h : (trim s).head? = some c) : isWs c = false := by
  unfold trim at h
  rw [List.head?_reverse] at h
  -- the last character of `r.dropWhile` is the last one of `r`
  have hsuf : ((s.dropWhile isWs).reverse.dropWhile isWs) <:+ (s.dropWhile isWs).reverse :=
    List.dropWhile_suffix _
  obtain ⟨pre, hpre⟩ := hsuf
  have : (s.dropWhile isWs).reverse.getLast? = some c := by
    rw [← hpre, List.getLast?_append, h]
    rfl
  rw [List.getLast?_reverse] at this
  exact head_dropWhile s this

theorem trim_mem (s : Str) {c : Char} (h : c ∈ trim s) : c ∈ s := by
  unfold trim at h
  rw [List.mem_reverse] at h
  have h1 := (List.dropWhile_suffix isWs).subset h
  rw [List.mem_reverse] at h1
  exact (List.dropWhile_suffix isWs).subset h1

theorem splitChar_ne_nil (c : Char) (s : Str) : splitChar c s ≠ [] := by
  cases s with
  | nil => simp [splitChar]
  | cons x xs =>
    rw [splitChar]
    split
    · simp
    · split <;> simp

theorem splitChar_notMem {c : Char} : ∀ (s : Str), ∀ l ∈ splitChar c s, c ∉ l := by
  intro s
  induction s with
  | nil => intro l hl; simp [splitChar] at hl; subst hl; simp
  | cons x xs ih =>
    intro l hl
    rw [splitChar] at hl
    split at hl
    · rcases List.mem_cons.mp hl with rfl | hl
      · simp
      · exact ih l hl
    · rename_i hx
      split at hl
      · rename_i h0; exact absurd h0 (splitChar_ne_nil c xs)
      · rename_i y ys hy
        rcases List.mem_cons.mp hl with rfl | hl
        · have := ih y (by rw [hy]; simp)
          simp only [List.mem_cons, not_or]
          exact ⟨fun e => hx e.symm, this⟩
        · exact ih l (by rw [hy]; simp [hl])

theorem fileLines_flatMap (ls : List Str) (h : ∀ l ∈ ls, '\n' ∉ l ∧ l.getLast? ≠ some '\r') :
    fileLines (ls.flatMap (fun l => l ++ ['\n'])) = ls := by
  have hs : splitChar '\n' (ls.flatMap (fun l => l ++ ['\n'])) = ls ++ [[]] := by
    induction ls with
    | nil => rfl
    | cons l ls ih =>
      have := h l (by simp)
      rw [List.flatMap_cons, List.append_assoc]
      rw [show ['\n'] ++ ls.flatMap (fun l => l ++ ['\n'])
        = '\n' :: ls.flatMap (fun l => l ++ ['\n']) from rfl]
      rw [splitChar_sep _ _ this.1, ih (fun l hl => h l (by simp [hl]))]
      rfl
  unfold fileLines
  rw [hs]
  simp only [List.getLast?_append, List.getLast?_singleton, Option.some_or, if_true]
  rw [List.dropLast_concat]
  conv => rhs; rw [← List.map_id ls]
  apply List.map_congr_left
  intro l hl
  simp [stripCr, (h l hl).2]

theorem mem_of_mem_dropLast' {α : Type} {a : α} {l : List α} (h : a ∈ l.dropLast) : a ∈ l :=
  (List.dropLast_prefix l).subset h

theorem fileLines_notMem (s : Str) : ∀ l ∈ fileLines s, '\n' ∉ l := by
  intro l hl
  unfold fileLines at hl
  rw [List.mem_map] at hl
  obtain ⟨l', hl', rfl⟩ := hl
  have hm : l' ∈ splitChar '\n' s := by
    split at hl'
    · exact mem_of_mem_dropLast' hl'
    · exact hl'
  have := splitChar_notMem s l' hm
  unfold stripCr
  split
  · exact fun hc => this (mem_of_mem_dropLast' hc)
  · exact this

theorem isDigit_facts {c : Char} (h : c.isDigit = true) : c ≠ ',' ∧ c ≠ ':' ∧ c ≠ '\n' ∧ c ≠ '+' := by
  refine ⟨?_, ?_, ?_, ?_⟩ <;> (rintro rfl; revert h; decide)

theorem showNat_digits (n : Nat) : ∀ c ∈ showNat n, c.isDigit = true := fun _ hc =>
  Nat.isDigit_of_mem_toDigits (by decide) (by decide) hc

theorem parseU32_showNat {n : Nat} (h : n < 4294967296) : parseU32 (showNat n) = some n := by
  have hne : showNat n ≠ [] := Nat.toDigits_ne_nil
  have hd := showNat_digits n
  have hds : stripPlus (showNat n) = showNat n := by
    unfold stripPlus
    split
    · rename_i rest he
      have := hd '+' (by rw [he]; simp)
      exact absurd this (by decide)
    · rfl
  unfold parseU32
  rw [hds, if_neg hne, if_pos (List.all_eq_true.mpr hd), showNat, Nat.ofDigitChars_ten_toDigits,
    if_pos h]

theorem parseNonZeroU32_showNat {n : Nat} (h0 : 0 < n) (h : n < 4294967296) :
    parseNonZeroU32 (showNat n) = some n := by
  unfold parseNonZeroU32
  rw [parseU32_showNat h]
  split
  · rename_i he; simp only [Option.some.injEq] at he; omega
  · rfl

theorem parseNonZeroU32_range {s : Str} {n : Nat} (h : parseNonZeroU32 s = some n) :
    0 < n ∧ n < 4294967296 := by
  unfold parseNonZeroU32 at h
  split at h
  · cases h
  · rename_i hne
    refine ⟨?_, ?_⟩
    · rcases Nat.eq_zero_or_pos n with rfl | hp
      · exact absurd h hne
      · exact hp
    · unfold parseU32 at h
      split at h
      · cases h
      · split at h
        · split at h
          · simp only [Option.some.injEq] at h
            omega
          · cases h
        · cases h

namespace Auth

theorem alphabet_facts {c : Char} (h : c.isAlphanum = true ∨ c = '+' ∨ c = '/') :
    c ≠ ',' ∧ c ≠ ':' ∧ c ≠ '\n' ∧ c ≠ '\r' ∧ isWs c = false := by
  have key : c ≠ ',' ∧ c ≠ ':' ∧ c ≠ '\n' ∧ c ≠ '\r' := by
    refine ⟨?_, ?_, ?_, ?_⟩ <;> (rintro rfl; revert h; decide)
  refine ⟨key.1, key.2.1, key.2.2.1, key.2.2.2, ?_⟩
  rcases h with h | rfl | rfl
  · simp only [Char.isAlphanum, Char.isAlpha, Char.isUpper, Char.isLower, Char.isDigit,
      Bool.or_eq_true, Bool.and_eq_true, decide_eq_true_eq] at h
    have hn : ∀ k : UInt32, (k ≤ c.val ↔ k.toNat ≤ c.toNat) ∧ (c.val ≤ k ↔ c.toNat ≤ k.toNat) :=
      fun k => ⟨UInt32.le_iff_toNat_le, UInt32.le_iff_toNat_le⟩
    simp only [ge_iff_le, (hn _).1, (hn _).2] at h
    simp only [isWs, Bool.or_eq_false_iff, Bool.and_eq_false_iff, decide_eq_false_iff_not,
      beq_eq_false_iff_ne]
    simp only [UInt32.toNat_ofNat', UInt32.reduceToNat, Char.reduceVal] at h
    omega
  · decide
  · decide

/-- The part of a dumped line after the colon. -/
def fields (x : Ext) (p : AuthPassword) : List Str :=
  match p.algorithm with
  | .sha256 => [sSha256, x.b64.encode p.salt, x.b64.encode p.hashed]
  | .sha512 => [sSha512, x.b64.encode p.salt, x.b64.encode p.hashed]
  | .sha256Pbkdf2 n => [sSha256P, showNat n, x.b64.encode p.salt, x.b64.encode p.hashed]
  | .sha512Pbkdf2 n => [sSha512P, showNat n, x.b64.encode p.salt, x.b64.encode p.hashed]

/-- The fields joined by commas. -/
def joinComma : List Str → Str
  | [] => []
  | [a] => a
  | a :: b :: r => a ++ ',' :: joinComma (b :: r)

theorem splitChar_join : ∀ (l : List Str), l ≠ [] → (∀ a ∈ l, ',' ∉ a) →
    splitChar ',' (joinComma l) = l
  | [], h, _ => absurd rfl h
  | [a], _, h => splitChar_last a (h a (by simp))
  | a :: b :: r, _, h => by
    rw [joinComma, splitChar_sep _ _ (h a (by simp)),
      splitChar_join (b :: r) (by simp) (fun c hc => h c (by simp [hc]))]

/-- A dumped line without its newline. -/
def body (x : Ext) (u : Str) (p : AuthPassword) : Str := u ++ ':' :: joinComma (fields x p)

theorem dumpLine_eq (x : Ext) (u : Str) (p : AuthPassword) :
    dumpLine x u p = body x u p ++ ['\n'] := by
  unfold dumpLine body fields
  cases p.algorithm <;> simp [joinComma]

theorem fields_chars {x : Ext} (hb : Base64Ok x.b64) (p : AuthPassword) :
    ∀ a ∈ fields x p, ∀ c ∈ a, c ≠ ',' ∧ c ≠ ':' ∧ c ≠ '\n' ∧ c ≠ '\r' ∧ isWs c = false := by
  have hshow : ∀ n, ∀ c ∈ showNat n, c ≠ ',' ∧ c ≠ ':' ∧ c ≠ '\n' ∧ c ≠ '\r' ∧ isWs c = false := by
    intro n c hc
    apply alphabet_facts
    left
    simp [Char.isAlphanum, showNat_digits n c hc]
  have henc : ∀ v, ∀ c ∈ x.b64.encode v,
      c ≠ ',' ∧ c ≠ ':' ∧ c ≠ '\n' ∧ c ≠ '\r' ∧ isWs c = false :=
    fun v c hc => alphabet_facts (hb.alphabet v c hc)
  have h1 : ∀ c ∈ sSha256, c ≠ ',' ∧ c ≠ ':' ∧ c ≠ '\n' ∧ c ≠ '\r' ∧ isWs c = false := by decide
  have h2 : ∀ c ∈ sSha512, c ≠ ',' ∧ c ≠ ':' ∧ c ≠ '\n' ∧ c ≠ '\r' ∧ isWs c = false := by decide
  have h3 : ∀ c ∈ sSha256P, c ≠ ',' ∧ c ≠ ':' ∧ c ≠ '\n' ∧ c ≠ '\r' ∧ isWs c = false := by decide
  have h4 : ∀ c ∈ sSha512P, c ≠ ',' ∧ c ≠ ':' ∧ c ≠ '\n' ∧ c ≠ '\r' ∧ isWs c = false := by decide
  intro a ha
  unfold fields at ha
  split at ha <;> simp only [List.mem_cons, List.not_mem_nil, or_false] at ha
  · rcases ha with rfl | rfl | rfl
    · exact h1
    · exact henc _
    · exact henc _
  · rcases ha with rfl | rfl | rfl
    · exact h2
    · exact henc _
    · exact henc _
  · rcases ha with rfl | rfl | rfl | rfl
    · exact h3
    · exact hshow _
    · exact henc _
    · exact henc _
  · rcases ha with rfl | rfl | rfl | rfl
    · exact h4
    · exact hshow _
    · exact henc _
    · exact henc _

theorem join_chars : ∀ (l : List Str) (c : Char), c ∈ joinComma l → c = ',' ∨ ∃ a ∈ l, c ∈ a
  | [], c, h => by simp [joinComma] at h
  | [a], c, h => Or.inr ⟨a, by simp, h⟩
  | a :: b :: r, c, h => by
    rw [joinComma] at h
    rcases List.mem_append.mp h with h | h
    · exact Or.inr ⟨a, by simp, h⟩
    · rcases List.mem_cons.mp h with h | h
      · exact Or.inl h
      · rcases join_chars (b :: r) c h with h | ⟨a', h1, h2⟩
        · exact Or.inl h
        · exact Or.inr ⟨a', by simp [h1], h2⟩

theorem joined_chars {x : Ext} (hb : Base64Ok x.b64) (p : AuthPassword) :
    ∀ c ∈ joinComma (fields x p), c ≠ ':' ∧ c ≠ '\n' ∧ c ≠ '\r' ∧ isWs c = false := by
  intro c hc
  rcases join_chars _ c hc with rfl | ⟨a, ha, hca⟩
  · decide
  · exact (fields_chars hb p a ha c hca).2

theorem parse_fields {x : Ext} (hb : Base64Ok x.b64) {p : AuthPassword} (hp : GoodEntry p) :
    parsePassword x (joinComma (fields x p)) = some p := by
  have hs : splitChar ',' (joinComma (fields x p)) = fields x p := by
    apply splitChar_join
    · unfold fields; split <;> simp
    · exact fun a ha hc => (fields_chars hb p a ha _ hc).1 rfl
  obtain ⟨alg, hashed, salt⟩ := p
  obtain ⟨hsalt, halg⟩ := hp
  have hps : parseSalt x (x.b64.encode salt) = some salt := by
    unfold parseSalt
    rw [hb.decode_encode]
    simp only
    rw [if_neg (by simp only [minSaltLen]; simp only at hsalt; omega)]
  unfold parsePassword
  rw [hs]
  cases alg with
  | sha256 => simp [fields, hps, hb.decode_encode]
  | sha512 =>
    simp only [fields]
    rw [if_neg (by decide), if_pos trivial]
    simp [hps, hb.decode_encode]
  | sha256Pbkdf2 n =>
    simp only [fields]
    rw [if_pos trivial, parseNonZeroU32_showNat halg.1 halg.2]
    simp [hps, hb.decode_encode]
  | sha512Pbkdf2 n =>
    simp only [fields]
    rw [if_neg (by decide), if_pos trivial, parseNonZeroU32_showNat halg.1 halg.2]
    simp [hps, hb.decode_encode]

theorem body_last {x : Ext} (hb : Base64Ok x.b64) (u : Str) (p : AuthPassword) {c : Char}
    (h : (body x u p).getLast? = some c) : isWs c = false ∧ c ≠ '\r' := by
  unfold body at h
  rw [List.getLast?_append, List.getLast?_cons] at h
  simp only [Option.some_or, Option.some.injEq] at h
  cases hj : (joinComma (fields x p)).getLast? with
  | none =>
    rw [hj] at h
    simp only [Option.getD_none] at h
    subst h
    decide
  | some d =>
    rw [hj] at h
    simp only [Option.getD_some] at h
    subst h
    have := joined_chars hb p d (List.mem_of_getLast? hj)
    exact ⟨this.2.2.2, this.2.2.1⟩

theorem loadLine_body {x : Ext} (hb : Base64Ok x.b64) {u : Str} {p : AuthPassword}
    (hu : GoodName u) (hp : GoodEntry p) (t : Table) :
    loadLine x t (body x u p) = some (t.insert u p) := by
  have htrim : trim (body x u p) = body x u p := by
    apply trim_id
    · intro c hc
      unfold body at hc
      cases u with
      | nil =>
        simp only [List.nil_append, List.head?_cons, Option.some.injEq] at hc
        subst hc
        decide
      | cons a u =>
        simp only [List.cons_append, List.head?_cons, Option.some.injEq] at hc
        exact hu.2 c (by simp [hc])
    · exact fun c hc => (body_last hb u p hc).1
  unfold loadLine
  simp only [htrim]
  rw [if_neg (by simp [body])]
  rw [body, rsplitOnce_sep _ _ (fun hc => (joined_chars hb p _ hc).1 rfl)]
  simp only [parse_fields hb hp]

theorem fileLines_dump {x : Ext} (hb : Base64Ok x.b64) (items : List (Str × AuthPassword))
    (hn : ∀ e ∈ items, '\n' ∉ e.1) :
    fileLines (dumpPasswords x items) = items.map (fun e => body x e.1 e.2) := by
  have : dumpPasswords x items
      = (items.map (fun e => body x e.1 e.2)).flatMap (fun l => l ++ ['\n']) := by
    unfold dumpPasswords
    rw [List.flatMap_map]
    congr 1
    funext e
    exact dumpLine_eq x e.1 e.2
  rw [this, fileLines_flatMap]
  intro l hl
  rw [List.mem_map] at hl
  obtain ⟨e, he, rfl⟩ := hl
  refine ⟨?_, fun h => (body_last hb _ _ h).2 rfl⟩
  unfold body
  simp only [List.mem_append, List.mem_cons, not_or]
  exact ⟨hn e he, by decide, fun hc => (joined_chars hb e.2 _ hc).2.1 rfl⟩

theorem foldl_insert_get : ∀ (items : List (Str × AuthPassword)) (t : Table) (u : Str),
    (items.map (·.1)).Nodup →
    (items.foldl (fun t e => t.insert e.1 e.2) t).get u = (FMap.get items u).or (t.get u) := by
  intro items
  induction items with
  | nil => intro t u _; rfl
  | cons e items ih =>
    intro t u hnd
    simp only [List.map_cons, List.nodup_cons] at hnd
    rw [List.foldl_cons, ih _ _ hnd.2, FMap.get_insert, FMap.get_cons]
    by_cases h : e.1 = u
    · have : FMap.get items u = none := by
        rw [FMap.get_eq_none_iff]
        subst h
        exact hnd.1
      simp [h, this]
    · have h' : ¬ u = e.1 := fun e' => h e'.symm
      simp [h, h']

theorem load_dump {x : Ext} (hb : Base64Ok x.b64) (items : List (Str × AuthPassword))
    (hg : ∀ e ∈ items, GoodName e.1 ∧ GoodEntry e.2) :
    loadPasswords x (dumpPasswords x items)
      = some (items.foldl (fun t e => FMap.insert t e.1 e.2) []) := by
  unfold loadPasswords
  rw [fileLines_dump hb items (fun e he => (hg e he).1.1)]
  generalize ([] : Table) = t
  induction items generalizing t with
  | nil => rfl
  | cons e items ih =>
    rw [List.map_cons, List.foldlM_cons, loadLine_body hb (hg e (by simp)).1 (hg e (by simp)).2]
    exact ih (fun e he => hg e (by simp [he])) _

/-- Everything in a loaded table is representable. -/
theorem parsePassword_good {x : Ext} {s : Str} {p : AuthPassword} (h : parsePassword x s = some p) :
    GoodEntry p := by
  have hsalt : ∀ {s b}, parseSalt x s = some b → 12 ≤ b.length := by
    intro s b h
    unfold parseSalt at h
    split at h
    · split at h
      · cases h
      · rename_i hlen
        simp only [Option.some.injEq] at h
        subst h
        simp only [minSaltLen] at hlen
        omega
    · cases h
  unfold parsePassword at h
  split at h
  · split at h
    · cases h1 : parseSalt x _ <;> rw [h1] at h <;> try cases h
      cases h2 : x.b64.decode _ <;> rw [h2] at h <;> try cases h
      exact ⟨hsalt h1, trivial⟩
    · split at h
      · cases h1 : parseSalt x _ <;> rw [h1] at h <;> try cases h
        cases h2 : x.b64.decode _ <;> rw [h2] at h <;> try cases h
        exact ⟨hsalt h1, trivial⟩
      · cases h
  · split at h
    · cases h0 : parseNonZeroU32 _ <;> rw [h0] at h <;> try cases h
      cases h1 : parseSalt x _ <;> rw [h1] at h <;> try cases h
      cases h2 : x.b64.decode _ <;> rw [h2] at h <;> try cases h
      exact ⟨hsalt h1, parseNonZeroU32_range h0⟩
    · split at h
      · cases h0 : parseNonZeroU32 _ <;> rw [h0] at h <;> try cases h
        cases h1 : parseSalt x _ <;> rw [h1] at h <;> try cases h
        cases h2 : x.b64.decode _ <;> rw [h2] at h <;> try cases h
        exact ⟨hsalt h1, parseNonZeroU32_range h0⟩
      · cases h
  · cases h

/-- A table that can be written to a file without loss. -/
structure Clean (t : Table) : Prop where
  wf : FMap.WF t
  good : ∀ e ∈ t, GoodName e.1 ∧ GoodEntry e.2

theorem Clean.nil : Clean [] := ⟨FMap.wf_nil, by simp⟩

theorem Clean.insert {t : Table} (h : Clean t) {u : Str} {p : AuthPassword} (hu : GoodName u)
    (hp : GoodEntry p) : Clean (t.insert u p) := by
  refine ⟨FMap.wf_insert h.wf _ _, ?_⟩
  intro e he
  have hg : FMap.get (FMap.insert t u p) e.1 = some e.2 := FMap.get_of_mem (FMap.wf_insert h.wf _ _) he
  rw [FMap.get_insert] at hg
  split at hg
  · rename_i hue
    simp only [Option.some.injEq] at hg
    rw [← hg]
    exact ⟨hue ▸ hu, hp⟩
  · exact h.good e (FMap.mem_of_get hg)

theorem Clean.erase {t : Table} (h : Clean t) (u : Str) : Clean (t.erase u) := by
  refine ⟨FMap.wf_erase h.wf _, ?_⟩
  intro e he
  have hg : FMap.get (FMap.erase t u) e.1 = some e.2 := FMap.get_of_mem (FMap.wf_erase h.wf _) he
  rw [FMap.get_erase] at hg
  split at hg
  · cases hg
  · exact h.good e (FMap.mem_of_get hg)

theorem loadLine_clean {x : Ext} {t t' : Table} {line : Str} (hl : '\n' ∉ line) (h : Clean t)
    (he : loadLine x t line = some t') : Clean t' := by
  unfold loadLine at he
  simp only at he
  split at he
  · simp only [Option.some.injEq] at he
    exact he ▸ h
  · split at he
    · rename_i u pw hsp
      split at he
      · rename_i item hpp
        simp only [Option.some.injEq] at he
        rw [← he]
        have hs := rsplitOnce_spec hsp
        refine h.insert ⟨?_, ?_⟩ (parsePassword_good hpp)
        · intro hc
          exact hl (trim_mem line (by rw [hs]; simp [hc]))
        · intro c hc
          apply trim_head line
          rw [hs]
          cases u with
          | nil => cases hc
          | cons a u => simpa using hc
      · cases he
    · cases he

theorem load_clean {x : Ext} {file : Str} {t : Table} (h : loadPasswords x file = some t) :
    Clean t := by
  unfold loadPasswords at h
  have hn := fileLines_notMem file
  have key : ∀ (ls : List Str) (t0 : Table), (∀ l ∈ ls, '\n' ∉ l) → Clean t0 →
      ls.foldlM (loadLine x) t0 = some t → Clean t := by
    intro ls
    induction ls with
    | nil =>
      intro t0 _ h0 he
      simp only [List.foldlM_nil, Option.pure_def, Option.some.injEq] at he
      exact he ▸ h0
    | cons l ls ih =>
      intro t0 hl h0 he
      rw [List.foldlM_cons] at he
      cases h1 : loadLine x t0 l with
      | none => rw [h1] at he; cases he
      | some t1 =>
        rw [h1] at he
        exact ih t1 (fun l' h' => hl l' (by simp [h'])) (loadLine_clean (hl l (by simp)) h0 h1) he
  exact key _ [] hn Clean.nil h

theorem perm_nodup_get {a b : Table} (hp : a.Perm b) (hb : FMap.WF b) (u : Str) :
    FMap.get a u = FMap.get b u := by
  have ha : FMap.WF a := by
    unfold FMap.WF FMap.keys
    exact (hp.map _).nodup_iff.mpr hb
  cases h : FMap.get a u with
  | none =>
    symm
    rw [FMap.get_eq_none_iff] at h ⊢
    intro hm
    exact h ((hp.map Prod.fst).mem_iff.mpr hm)
  | some v =>
    symm
    exact FMap.get_of_mem hb (hp.mem_iff.mp (FMap.mem_of_get h))

theorem reload {x : Ext} (hb : Base64Ok x.b64) {t : Table} (hc : Clean t)
    {items : List (Str × AuthPassword)} (hp : items.Perm t) :
    ∃ t', loadPasswords x (dumpPasswords x items) = some t' ∧ SameTable t' t ∧ Clean t' := by
  have hld := load_dump hb items (fun e he => hc.good e (hp.mem_iff.mp he))
  refine ⟨_, hld, ?_, load_clean hld⟩
  intro u
  rw [foldl_insert_get items [] u ((hp.map _).nodup_iff.mpr hc.wf), FMap.get_nil, Option.or_none]
  exact perm_nodup_get hp hc.wf u

end Auth

end Akasa
