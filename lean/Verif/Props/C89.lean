import Verif.P2p.UserAgent
/-!
# C89 — User agents say what was put into them

The text of a user agent built with `new`, `add_client` and `push_comment` has the form BIP14 prescribes, is at most
256 characters long, and determines the clients it was built from.
-/
namespace Btc
namespace P2p

/-- The characters with a meaning in BIP14. -/
def Reserved (c : Char) : Prop := c ∈ ['/', '(', ')', ':']
def Clean (s : Str) : Prop := ∀ c ∈ s, ¬Reserved c
def Client.CleanAll (c : Client) : Prop := Clean c.name ∧ ∀ s ∈ c.comments, Clean s

/-- BIP14: comments in parentheses, separated by `; `. -/
def commentsText : List Str → Str
  | [] => []
  | c :: cs => "(".toList ++ c ++ cs.flatMap (fun x => "; ".toList ++ x) ++ ")".toList
/-- BIP14: `/Name:Version(comments)/Name:Version(comments)/`. -/
def clientText (c : Client) : Str := c.name ++ ":".toList ++ c.version.text ++ commentsText c.comments ++ "/".toList
def agentText (cs : List Client) : Str := "/".toList ++ cs.flatMap clientText

theorem invalid_ok (s : Str) : panicInvalidChars s = .ok () ↔ Clean s := by
  unfold panicInvalidChars
  split
  · rename_i h
    simp only [reduceCtorEq, false_iff]
    intro hc
    rw [List.any_eq_true] at h
    obtain ⟨c, h1, h2⟩ := h
    apply hc c h1
    simp only [Bool.or_eq_true, decide_eq_true_eq] at h2
    simp only [Reserved, List.mem_cons, List.not_mem_nil, or_false]
    grind
  · rename_i h
    simp only [true_iff]
    intro c hc hr
    apply h
    rw [List.any_eq_true]
    refine ⟨c, hc, ?_⟩
    simp only [Reserved, List.mem_cons, List.not_mem_nil, or_false] at hr
    simp only [Bool.or_eq_true, decide_eq_true_eq]
    grind

theorem invalid_err (s : Str) (h : ¬Clean s) : panicInvalidChars s = .error .invalidChars := by
  cases e : panicInvalidChars s with
  | ok u => exact absurd ((invalid_ok s).1 e) h
  | error x => unfold panicInvalidChars at e; split at e <;> cases e; rfl

/-- The comments after pushing `cs`. -/
def joined : Option Str → List Str → Option Str
  | o, [] => o
  | none, c :: cs => joined (some c) cs
  | some o, c :: cs => joined (some (o ++ "; ".toList ++ c)) cs

theorem joined_some : ∀ (cs : List Str) (o : Str), joined (some o) cs = some (o ++ cs.flatMap (fun x => "; ".toList ++ x))
  | [], o => by simp [joined]
  | c :: cs, o => by rw [joined, joined_some cs]; simp

theorem pushAll_eq : ∀ (cs : List Str) (v : UaVersion),
    ((∀ s ∈ cs, Clean s) → pushAll v cs = .ok ⟨v.version, joined v.comments cs⟩)
    ∧ (¬(∀ s ∈ cs, Clean s) → pushAll v cs = .error .invalidChars)
  | [], v => ⟨fun _ => rfl, fun h => absurd (fun s hs => by cases hs) h⟩
  | c :: cs, ⟨ver, o⟩ => by
    by_cases hc : Clean c
    · have e : (UaVersion.mk ver o).pushComment c = .ok ⟨ver, joined o [c]⟩ := by
        unfold UaVersion.pushComment
        rw [(invalid_ok c).2 hc]
        cases o with
        | none => rfl
        | some x => simp [joined]
      obtain ⟨h1, h2⟩ := pushAll_eq cs ⟨ver, joined o [c]⟩
      refine ⟨fun h => ?_, fun h => ?_⟩
      · rw [pushAll, e]
        simp only
        rw [h1 (fun s hs => h s (List.mem_cons_of_mem _ hs))]
        cases o <;> simp [joined]
      · rw [pushAll, e]
        exact h2 (fun h3 => h (fun s hs => by
          rcases List.mem_cons.1 hs with rfl | hs
          · exact hc
          · exact h3 s hs))
    · refine ⟨fun h => absurd (h c (List.mem_cons_self)) hc, fun _ => ?_⟩
      rw [pushAll, UaVersion.pushComment, invalid_err c hc]

theorem version_text (v : SwVersion) (cs : List Str) :
    (UaVersion.mk v (joined none cs)).text = v.text ++ commentsText cs := by
  cases cs with
  | nil => simp [UaVersion.text, joined, commentsText]
  | cons c cs => rw [joined, joined_some]; simp [UaVersion.text, commentsText]

theorem client_eq (c : Client) (v : UaVersion) (h : pushAll (.new c.version) c.comments = .ok v) :
    c.name ++ [':'] ++ v.text ++ ['/'] = clientText c := by
  obtain ⟨h1, h2⟩ := pushAll_eq c.comments (.new c.version)
  by_cases hc : ∀ s ∈ c.comments, Clean s
  · rw [h1 hc] at h
    cases h
    rw [show (UaVersion.new c.version).comments = none from rfl, show (UaVersion.new c.version).version = c.version from rfl,
      version_text]
    simp [clientText]
  · rw [h2 hc] at h; cases h

theorem addAll_ok : ∀ (cs : List Client) (ua t : UserAgent),
    ua.userAgent.length ≤ 256 →
    (addAll ua cs = .ok t ↔ (∀ c ∈ cs, c.CleanAll) ∧ t.userAgent = ua.userAgent ++ cs.flatMap clientText ∧ t.userAgent.length ≤ 256)
  | [], ua, t, hl => by
    simp only [addAll, Except.ok.injEq, List.not_mem_nil, false_implies, implies_true, List.flatMap_nil, List.append_nil, true_and]
    constructor
    · rintro rfl; exact ⟨rfl, hl⟩
    · rintro ⟨h, _⟩; cases ua; cases t; simp_all
  | c :: cs, ua, t, hl => by
    by_cases hcl : c.CleanAll
    · have hp := (pushAll_eq c.comments (.new c.version)).1 hcl.2
      have ht := client_eq c _ hp
      rw [addAll, hp]
      simp only
      unfold UserAgent.addClient
      rw [(invalid_ok c.name).2 hcl.1, ht]
      unfold panicMaxLen MAX_USER_AGENT_LEN
      by_cases hlen : (ua.userAgent ++ clientText c).length ≤ 256
      · simp only [if_pos hlen]
        rw [addAll_ok cs ⟨ua.userAgent ++ clientText c⟩ t hlen]
        simp only [List.mem_cons, forall_eq_or_imp, hcl, true_and, List.flatMap_cons, List.append_assoc]
      · simp only [if_neg hlen, reduceCtorEq, false_iff]
        rintro ⟨_, h1, h2⟩
        apply hlen
        rw [h1, List.flatMap_cons, ← List.append_assoc, List.length_append] at h2
        omega
    · have : addAll ua (c :: cs) = .error .invalidChars := by
        obtain ⟨h1, h2⟩ := pushAll_eq c.comments (.new c.version)
        rw [addAll]
        by_cases hc : ∀ s ∈ c.comments, Clean s
        · rw [h1 hc]
          simp only [UserAgent.addClient]
          rw [invalid_err c.name (fun h => hcl ⟨h, hc⟩)]
        · rw [h2 hc]
      rw [this]
      simp only [reduceCtorEq, false_iff]
      rintro ⟨h, _⟩
      exact hcl (h c List.mem_cons_self)

/-- A user agent comes out exactly when no name and no comment contains a reserved character and the whole text has
at most 256 characters; the text is the one BIP14 prescribes.  In all other cases the code panics. -/
theorem C89_build (c : Client) (cs : List Client) (t : UserAgent) :
    buildAgent c cs = .ok t ↔
      (∀ x ∈ c :: cs, x.CleanAll) ∧ t.text = agentText (c :: cs) ∧ t.text.length ≤ 256 := by
  by_cases hcl : c.CleanAll
  · have hp := (pushAll_eq c.comments (.new c.version)).1 hcl.2
    have ht := client_eq c _ hp
    have ht' : ∀ w, w = joined (UaVersion.new c.version).comments c.comments →
        ['/'] ++ c.name ++ [':'] ++ UaVersion.text ⟨(UaVersion.new c.version).version, w⟩ ++ ['/'] = ['/'] ++ clientText c := by
      rintro w rfl; rw [← ht]; simp
    rw [buildAgent, hp]
    simp only
    unfold UserAgent.new
    rw [(invalid_ok c.name).2 hcl.1, ht' _ rfl]
    unfold panicMaxLen MAX_USER_AGENT_LEN
    by_cases hlen : (['/'] ++ clientText c).length ≤ 256
    · simp only [if_pos hlen]
      rw [addAll_ok cs ⟨['/'] ++ clientText c⟩ t hlen]
      simp only [List.mem_cons, forall_eq_or_imp, hcl, true_and, agentText, List.flatMap_cons, List.append_assoc,
        UserAgent.text]
      rfl
    · simp only [if_neg hlen, reduceCtorEq, false_iff]
      rintro ⟨_, h1, h2⟩
      apply hlen
      rw [h1, agentText, List.flatMap_cons, ← List.append_assoc, List.length_append] at h2
      exact Nat.le_trans (Nat.le_add_right _ _) h2
  · have : buildAgent c cs = .error .invalidChars := by
      obtain ⟨h1, h2⟩ := pushAll_eq c.comments (.new c.version)
      rw [buildAgent]
      by_cases hc : ∀ s ∈ c.comments, Clean s
      · rw [h1 hc]
        simp only [UserAgent.new]
        rw [invalid_err c.name (fun h => hcl ⟨h, hc⟩)]
      · rw [h2 hc]
    rw [this]
    simp only [reduceCtorEq, false_iff]
    rintro ⟨h, _⟩
    exact hcl (h c List.mem_cons_self)

example : buildAgent ⟨"Satoshi".toList, .semVer 5 64 0, ["Android".toList, "arm".toList]⟩ [⟨"wallet".toList, .date 2025 3 7, []⟩]
    = .ok ⟨"/Satoshi:5.64.0(Android; arm)/wallet:20250307/".toList⟩ := by
  with_unfolding_all rfl

/-! ### Reading a user agent -/

theorem split_first {c : Char} : ∀ {a b x y : Str}, c ∉ a → c ∉ b → a ++ c :: x = b ++ c :: y → a = b ∧ x = y
  | [], [], x, y, _, _, h => by simpa using h
  | [], d :: b, x, y, _, hb, h => by
    simp only [List.nil_append, List.cons_append, List.cons.injEq] at h
    exact absurd (h.1 ▸ List.mem_cons_self) hb
  | d :: a, [], x, y, ha, _, h => by
    simp only [List.nil_append, List.cons_append, List.cons.injEq] at h
    exact absurd (h.1 ▸ List.mem_cons_self) ha
  | d :: a, e :: b, x, y, ha, hb, h => by
    simp only [List.cons_append, List.cons.injEq] at h
    obtain ⟨h1, h2⟩ := split_first (fun m => ha (List.mem_cons_of_mem _ m)) (fun m => hb (List.mem_cons_of_mem _ m)) h.2
    exact ⟨by rw [h.1, h1], h2⟩

theorem decStr_digit {n : Nat} {c : Char} (h : c ∈ decStr n) : c.isDigit = true :=
  Nat.isDigit_of_mem_toDigits (by omega) (by omega) h

theorem decStr_inj {a b : Nat} (h : decStr a = decStr b) : a = b := by
  rw [← Nat.ofDigitChars_ten_toDigits (n := a), ← Nat.ofDigitChars_ten_toDigits (n := b)]
  exact congrArg (Nat.ofDigitChars 10 · 0) h

theorem decStr2_digit {n : Nat} {c : Char} (h : c ∈ decStr2 n) : c.isDigit = true := by
  unfold decStr2 at h
  rcases List.mem_append.1 h with h | h
  · rw [(List.mem_replicate.1 h).2]; decide
  · exact decStr_digit h

theorem decStr2_small : ∀ n : Fin 100, (decStr2 n.1).length = 2 ∧ Nat.ofDigitChars 10 (decStr2 n.1) 0 = n.1 := by
  decide +kernel

theorem decStr2_inj {a b : Nat} (ha : a < 100) (hb : b < 100) (h : decStr2 a = decStr2 b) : a = b := by
  have h1 := (decStr2_small ⟨a, ha⟩).2
  have h2 := (decStr2_small ⟨b, hb⟩).2
  simp only at h1 h2
  rw [← h1, ← h2, h]

/-- A date with two-digit months and days. -/
def SwVersion.Proper : SwVersion → Prop
  | .date _ m d => m.toNat < 100 ∧ d.toNat < 100
  | .semVer _ _ _ => True

theorem version_char {v : SwVersion} {c : Char} (h : c ∈ v.text) : c.isDigit = true ∨ c = '.' := by
  cases v with
  | date y m d =>
    simp only [SwVersion.text, List.mem_append] at h
    rcases h with (h | h) | h
    · exact .inl (decStr_digit h)
    · exact .inl (decStr2_digit h)
    · exact .inl (decStr2_digit h)
  | semVer x y z =>
    simp only [SwVersion.text, List.mem_append, List.mem_singleton] at h
    rcases h with (((h | h) | h) | h) | h
    · exact .inl (decStr_digit h)
    · exact .inr h
    · exact .inl (decStr_digit h)
    · exact .inr h
    · exact .inl (decStr_digit h)

theorem dot_not {n : Nat} : '.' ∉ decStr n := fun h => absurd (decStr_digit h) (by decide)

theorem date_no_dot {y : UInt16} {m d : UInt8} : '.' ∉ (SwVersion.date y m d).text := by
  intro h
  simp only [SwVersion.text, List.mem_append] at h
  rcases h with (h | h) | h
  · exact dot_not h
  · exact absurd (decStr2_digit h) (by decide)
  · exact absurd (decStr2_digit h) (by decide)

/-- The text of a version determines it. -/
theorem C89_version {v w : SwVersion} (hv : v.Proper) (hw : w.Proper) (h : v.text = w.text) : v = w := by
  cases v with
  | date y m d =>
    cases w with
    | date y' m' d' =>
      simp only [SwVersion.text] at h
      have l1 := (decStr2_small ⟨_, hv.2⟩).1
      have l2 := (decStr2_small ⟨_, hw.2⟩).1
      have l3 := (decStr2_small ⟨_, hv.1⟩).1
      have l4 := (decStr2_small ⟨_, hw.1⟩).1
      simp only at l1 l2 l3 l4
      obtain ⟨h, hd⟩ := List.append_inj' h (by rw [l1, l2])
      obtain ⟨hy, hm⟩ := List.append_inj' h (by rw [l3, l4])
      rw [UInt16.toNat_inj.1 (decStr_inj hy), UInt8.toNat_inj.1 (decStr2_inj hv.1 hw.1 hm),
        UInt8.toNat_inj.1 (decStr2_inj hv.2 hw.2 hd)]
    | semVer a b c =>
      exact absurd (h ▸ (show '.' ∈ (SwVersion.semVer a b c).text by simp [SwVersion.text])) date_no_dot
  | semVer a b c =>
    cases w with
    | date y m d =>
      exact absurd (h ▸ (show '.' ∈ (SwVersion.semVer a b c).text by simp [SwVersion.text])) date_no_dot
    | semVer a' b' c' =>
      simp only [SwVersion.text, List.append_assoc, List.singleton_append] at h
      obtain ⟨h1, h⟩ := split_first dot_not dot_not h
      obtain ⟨h2, h3⟩ := split_first dot_not dot_not h
      rw [UInt16.toNat_inj.1 (decStr_inj h1), UInt16.toNat_inj.1 (decStr_inj h2), UInt16.toNat_inj.1 (decStr_inj h3)]

example : SwVersion.Proper (.date 2025 3 7) ∧ (SwVersion.date 2025 3 7).text = "20250307".toList :=
  ⟨⟨by decide, by decide⟩, by with_unfolding_all rfl⟩

theorem joined_inj : ∀ {cs ds : List Str}, (∀ s ∈ cs, ';' ∉ s) → (∀ s ∈ ds, ';' ∉ s) →
    ∀ {c d : Str}, ';' ∉ c → ';' ∉ d →
    c ++ cs.flatMap (fun x => "; ".toList ++ x) = d ++ ds.flatMap (fun x => "; ".toList ++ x) → c = d ∧ cs = ds
  | [], [], _, _, c, d, _, _, h => by simpa using h
  | [], y :: ds, _, _, c, d, hc, _, h => by
    simp only [List.flatMap_nil, List.append_nil] at h
    exact absurd (by rw [h]; simp) hc
  | x :: cs, [], _, _, c, d, _, hd, h => by
    simp only [List.flatMap_nil, List.append_nil] at h
    exact absurd (by rw [← h]; simp) hd
  | x :: cs, y :: ds, hx, hy, c, d, hc, hd, h => by
    simp only [List.flatMap_cons, List.append_assoc] at h
    obtain ⟨h1, h2⟩ := split_first (c := ';') (x := ' ' :: (x ++ cs.flatMap (fun x => "; ".toList ++ x)))
      (y := ' ' :: (y ++ ds.flatMap (fun x => "; ".toList ++ x))) hc hd h
    simp only [List.cons.injEq, true_and] at h2
    obtain ⟨h3, h4⟩ := joined_inj (fun s hs => hx s (List.mem_cons_of_mem _ hs)) (fun s hs => hy s (List.mem_cons_of_mem _ hs))
      (hx x List.mem_cons_self) (hy y List.mem_cons_self) h2
    exact ⟨h1, by rw [h3, h4]⟩

/-- The clients whose user agent can be read back: proper dates, no `;` within a comment. -/
def Client.Readable (c : Client) : Prop := c.version.Proper ∧ ∀ s ∈ c.comments, ';' ∉ s

theorem not_paren_version {v : SwVersion} {c : Char} (hr : Reserved c) : c ∉ v.text := by
  intro h
  simp only [Reserved, List.mem_cons, List.not_mem_nil, or_false] at hr
  rcases version_char h with h | h
  · rcases hr with rfl | rfl | rfl | rfl <;> revert h <;> decide
  · rcases hr with rfl | rfl | rfl | rfl <;> revert h <;> decide

theorem body_inj {v w : SwVersion} {cs ds : List Str}
    (h : v.text ++ commentsText cs = w.text ++ commentsText ds) : v.text = w.text ∧ commentsText cs = commentsText ds := by
  have hp : ∀ v : SwVersion, '(' ∉ v.text := fun v => not_paren_version (by simp [Reserved])
  cases cs with
  | nil =>
    cases ds with
    | nil => simpa [commentsText] using h
    | cons d ds =>
      simp only [commentsText, List.append_nil] at h
      exact absurd (by rw [h]; simp) (hp v)
  | cons c cs =>
    cases ds with
    | nil =>
      simp only [commentsText, List.append_nil] at h
      exact absurd (by rw [← h]; simp) (hp w)
    | cons d ds =>
      obtain ⟨h1, h2⟩ := split_first (c := '(') (hp v) (hp w) (by simpa [commentsText] using h)
      refine ⟨h1, ?_⟩
      simp only [commentsText]
      simpa using h2

theorem comments_clean {cs : List Str} (h : ∀ s ∈ cs, Clean s) : '/' ∉ commentsText cs := by
  cases cs with
  | nil => simp [commentsText]
  | cons c cs =>
    have hs : ∀ s ∈ c :: cs, '/' ∉ s := fun s hs m => h s hs _ m (by simp [Reserved])
    simp only [commentsText, List.mem_append, List.mem_flatMap]
    rintro (((m | m) | ⟨x, hx, m⟩) | m)
    · revert m; decide
    · exact hs c List.mem_cons_self m
    · rcases m with m | m
      · revert m; decide
      · exact hs x (List.mem_cons_of_mem _ hx) m
    · revert m; decide

theorem comments_inj {cs ds : List Str} (hc : ∀ s ∈ cs, ';' ∉ s) (hd : ∀ s ∈ ds, ';' ∉ s)
    (h : commentsText cs = commentsText ds) : cs = ds := by
  cases cs with
  | nil =>
    cases ds with
    | nil => rfl
    | cons d ds => simp [commentsText] at h
  | cons c cs =>
    cases ds with
    | nil => simp [commentsText] at h
    | cons d ds =>
      simp only [commentsText] at h
      obtain ⟨h1, _⟩ := List.append_inj' h rfl
      rw [List.append_assoc, List.append_assoc] at h1
      have h2 := List.append_cancel_left h1
      obtain ⟨h3, h4⟩ := joined_inj (fun s hs => hc s (List.mem_cons_of_mem _ hs)) (fun s hs => hd s (List.mem_cons_of_mem _ hs))
        (hc c List.mem_cons_self) (hd d List.mem_cons_self) h2
      rw [h3, h4]

/-- Whatever the versions and comments are, the text determines the names, the text of each version and the text of
its comments. -/
theorem clients_inj : ∀ {cs ds : List Client}, (∀ c ∈ cs, c.CleanAll) → (∀ d ∈ ds, d.CleanAll) →
    cs.flatMap clientText = ds.flatMap clientText →
    cs.map (fun c => (c.name, c.version.text, commentsText c.comments))
      = ds.map (fun c => (c.name, c.version.text, commentsText c.comments))
  | [], [], _, _, _ => rfl
  | [], d :: ds, _, _, h => by simp [clientText] at h
  | c :: cs, [], _, _, h => by simp [clientText] at h
  | c :: cs, d :: ds, hc, hd, h => by
    have slash : ∀ x : Client, x.CleanAll → '/' ∉ x.name ++ ':' :: (x.version.text ++ commentsText x.comments) := by
      intro x hx m
      rcases List.mem_append.1 m with m | m
      · exact hx.1 _ m (by simp [Reserved])
      · rcases List.mem_cons.1 m with m | m
        · exact absurd m (by decide)
        · rcases List.mem_append.1 m with m | m
          · exact not_paren_version (by simp [Reserved]) m
          · exact comments_clean hx.2 m
    have e : ∀ (x : Client) (r : Str), clientText x ++ r
        = (x.name ++ ':' :: (x.version.text ++ commentsText x.comments)) ++ '/' :: r := by
      intro x r; simp [clientText]
    rw [List.flatMap_cons, List.flatMap_cons, e, e] at h
    have hc0 := hc c List.mem_cons_self
    have hd0 := hd d List.mem_cons_self
    obtain ⟨h1, h2⟩ := split_first (slash c hc0) (slash d hd0) h
    obtain ⟨h3, h4⟩ := split_first (fun m => hc0.1 _ m (by simp [Reserved])) (fun m => hd0.1 _ m (by simp [Reserved])) h1
    obtain ⟨h5, h6⟩ := body_inj h4
    have ih := clients_inj (fun x hx => hc x (List.mem_cons_of_mem _ hx)) (fun x hx => hd x (List.mem_cons_of_mem _ hx)) h2
    rw [List.map_cons, List.map_cons, h3, h5, h6, ih]

theorem C89_fields (c d : Client) (cs ds : List Client) (t : UserAgent) (h1 : buildAgent c cs = .ok t)
    (h2 : buildAgent d ds = .ok t) :
    (c :: cs).map (fun c => (c.name, c.version.text, commentsText c.comments))
      = (d :: ds).map (fun c => (c.name, c.version.text, commentsText c.comments)) := by
  obtain ⟨a1, a2, _⟩ := (C89_build _ _ _).1 h1
  obtain ⟨b1, b2, _⟩ := (C89_build _ _ _).1 h2
  rw [a2, agentText, agentText] at b2
  exact clients_inj a1 b1 (List.append_cancel_left b2)

/-- **Partial.** The text of a user agent determines every name, version and comment it was built from.  The full
claim has no `Readable` hypotheses; it fails without them (`C89_comment_refuted`, `C89_date_refuted`). -/
theorem C89_determined_partial (c d : Client) (cs ds : List Client) (t : UserAgent) (h1 : buildAgent c cs = .ok t)
    (h2 : buildAgent d ds = .ok t) (hr : ∀ x ∈ c :: cs, x.Readable) (hs : ∀ x ∈ d :: ds, x.Readable) :
    c :: cs = d :: ds := by
  have h := C89_fields c d cs ds t h1 h2
  generalize c :: cs = l at *
  generalize d :: ds = m at *
  clear h1 h2
  induction l generalizing m with
  | nil => cases m with
    | nil => rfl
    | cons x m => simp at h
  | cons x l ih => cases m with
    | nil => simp at h
    | cons y m =>
      simp only [List.map_cons, List.cons.injEq, Prod.mk.injEq] at h
      obtain ⟨⟨e1, e2, e3⟩, h⟩ := h
      have hx := hr x List.mem_cons_self
      have hy := hs y List.mem_cons_self
      have e2 := C89_version hx.1 hy.1 e2
      have e3 := comments_inj hx.2 hy.2 e3
      rw [ih (fun z hz => hr z (List.mem_cons_of_mem _ hz)) m (fun z hz => hs z (List.mem_cons_of_mem _ hz)) h]
      cases x; cases y; simp_all

example : ∃ t, buildAgent ⟨"Satoshi".toList, .semVer 5 64 0, ["Android".toList, "arm".toList]⟩ [⟨"wallet".toList, .date 2025 3 7, []⟩] = .ok t
    ∧ ∀ x ∈ [Client.mk "Satoshi".toList (.semVer 5 64 0) ["Android".toList, "arm".toList], ⟨"wallet".toList, .date 2025 3 7, []⟩],
        x.Readable := by
  refine ⟨_, rfl, ?_⟩
  intro x hx
  simp only [List.mem_cons, List.not_mem_nil, or_false] at hx
  rcases hx with rfl | rfl
  · exact ⟨trivial, by decide⟩
  · exact ⟨⟨by decide, by decide⟩, by decide⟩

/-- One comment that contains `; ` gives the same user agent as two comments. -/
theorem C89_comment_refuted : ∃ t,
    buildAgent ⟨"Satoshi".toList, .semVer 1 0 0, ["a; b".toList]⟩ [] = .ok t
    ∧ buildAgent ⟨"Satoshi".toList, .semVer 1 0 0, ["a".toList, "b".toList]⟩ [] = .ok t := ⟨_, rfl, rfl⟩

/-- Months and days of three digits make dates ambiguous. -/
theorem C89_date_refuted : ∃ t,
    buildAgent ⟨"Satoshi".toList, .date 2024 1 110, []⟩ [] = .ok t
    ∧ buildAgent ⟨"Satoshi".toList, .date 20240 11 10, []⟩ [] = .ok t :=
  ⟨⟨"/Satoshi:202401110/".toList⟩, by with_unfolding_all rfl, by with_unfolding_all rfl⟩

/-- A non-standard user agent is any text; adding a client to it appends to it. -/
theorem C89_nonstandard (s : Str) (cs : List Client) (t : UserAgent) (h : s.length ≤ 256) :
    (UserAgent.fromNonstandard s).text = s
    ∧ (addAll (.fromNonstandard s) cs = .ok t ↔
        (∀ c ∈ cs, c.CleanAll) ∧ t.text = s ++ cs.flatMap clientText ∧ t.text.length ≤ 256) :=
  ⟨rfl, addAll_ok cs (.fromNonstandard s) t h⟩

example : "anything (goes)".toList.length ≤ 256 := by decide

end P2p
end Btc
