import Verif.Breakpad.RecordLemmas

/-! Lemmas about the Breakpad parser: telling the records apart. -/

set_option autoImplicit false

namespace Blazesym.Breakpad
open Blazesym.Util Blazesym.Spec Blazesym.Spec.Breakpad

variable {α β : Type}

theorem seq_assoc (L M N : Lang) : (L ∙ M) ∙ N = L ∙ M ∙ N := by
  funext t
  apply propext
  constructor
  · rintro ⟨_, z, rfl, ⟨x, y, rfl, hx, hy⟩, hz⟩
    exact ⟨x, y ++ z, by simp, hx, y, z, rfl, hy, hz⟩
  · rintro ⟨x, _, rfl, hx, y, z, rfl, hy, hz⟩
    exact ⟨x ++ y, z, by simp, ⟨x, y, rfl, hx, hy⟩, hz⟩

theorem kw_iff {s : String} {L : Lang} {i r : Bytes} :
    (∃ b t, i = ascii s ++ (b ++ (t ++ r)) ∧ Blanks b ∧ L t) ↔
      ∃ t, i = t ++ r ∧ (lit s ∙ Blanks ∙ L) t := by
  constructor
  · rintro ⟨b, t, rfl, hb, ht⟩
    exact ⟨ascii s ++ (b ++ t), by simp, _, _, rfl, rfl, b, t, rfl, hb, ht⟩
  · rintro ⟨_, rfl, _, _, rfl, rfl, b, t, rfl, hb, ht⟩
    exact ⟨b, t, by simp, hb, ht⟩

theorem orElse_ok {p q : Nom α} {i : Bytes} {x : Bytes × α} :
    orElse p q i = .ok x ↔ p i = .ok x ∨ (∃ t, p i = .error (.error t)) ∧ q i = .ok x := by
  unfold orElse
  cases h : p i with
  | ok y => simp
  | error e => cases e <;> simp

/-- The two texts differ at some place. -/
def clash (k k' : Bytes) : Bool := k.take k'.length != k'.take k.length

theorem not_prefix_of_clash {k k' s : Bytes} (h : clash k k' = true) : ¬ k <+: k' ++ s := by
  intro hp
  unfold clash at h
  rw [bne_iff_ne] at h
  apply h
  obtain ⟨u, hu⟩ := hp
  have h1 : k = (k' ++ s).take k.length := by rw [← hu]; simp
  have h2 : k.take k'.length = ((k' ++ s).take k.length).take k'.length := by rw [← h1]
  rw [h2, List.take_take, Nat.min_comm, ← List.take_take]
  simp

theorem keyword_fail {k i : Bytes} (h : ¬ k <+: i) {f : Unit → Nom α} :
    (keyword k >>= f) i = .error (.error [(i, .tag)]) := by
  have h1 : keyword k i = .error (.error [(i, .tag)]) := by
    unfold keyword terminated
    change Nom.bind _ _ _ = _
    unfold Nom.bind tag
    rw [if_neg (by rw [List.isPrefixOf_iff_prefix]; exact h)]
  change Nom.bind _ _ _ = _
  unfold Nom.bind
  rw [h1]

theorem mapTo_fail {p : Nom α} {f : α → β} {i : Bytes} {e : NErr} (h : p i = .error e) :
    mapTo p f i = .error e := by
  unfold mapTo
  change Nom.bind _ _ _ = _
  unfold Nom.bind
  rw [h]

theorem orElse_fail {p q : Nom α} {i : Bytes} {t : Trail} (h : p i = .error (.error t)) : orElse p q i = q i := by
  unfold orElse; rw [h]

theorem orElse_first {p q : Nom α} {i : Bytes} {x : Bytes × α} (h : p i = .ok x) : orElse p q i = .ok x := by
  unfold orElse; rw [h]

/-! ### `INFO URL` records are `INFO` records -/

theorem infoUrl_infoLine {i r : Bytes} {u : Unit} (h : infoUrl i = .ok (r, u)) :
    ∃ s, infoLine i = .ok (r, s) := by
  rw [infoUrl_ok] at h
  obtain ⟨b, _, rfl, hb, t, e, rfl, ht, he⟩ := h
  rw [infoLine_ok]
  refine ⟨[32], ascii "URL" ++ (b ++ t) ++ e, ?_, ⟨by simp, by intro c hc; simp at hc; exact Or.inl hc⟩,
    _, e, rfl, ?_, he⟩
  · have : ascii "INFO URL" = ascii "INFO" ++ ([32] ++ ascii "URL") := by decide +kernel
    rw [this]; simp
  · intro c hc
    rcases List.mem_append.mp hc with hc | hc
    · have : c = 85 ∨ c = 82 ∨ c = 76 := by simpa [ascii] using hc
      rcases this with rfl | rfl | rfl <;> decide
    · rcases List.mem_append.mp hc with hc | hc
      · rcases hb.2 c hc with rfl | rfl <;> decide
      · exact ht c hc

theorem infoUrl_of_infoLine {i r s : Bytes} (h : infoLine i = .ok (r, s)) :
    (∃ t, infoUrl i = .error (.error t)) ∨ infoUrl i = .ok (r, ()) := by
  by_cases hk : ∃ x, keyword (ascii "INFO URL") i = .ok x
  · right
    obtain ⟨⟨m, u⟩, hk⟩ := hk
    obtain ⟨b', h1, hb', hs⟩ := keyword_ok.mp hk
    obtain ⟨b, _, h2, hb, t, e, rfl, ht, he⟩ := infoLine_ok.mp ⟨s, h⟩
    have hline : ∀ c ∈ ascii "INFO URL" ++ b', c ≠ 13 ∧ c ≠ 10 := by
      intro c hc
      rcases List.mem_append.mp hc with hc | hc
      · have : ∀ c ∈ ascii "INFO URL", c ≠ 13 ∧ c ≠ 10 := by decide +kernel
        exact this c hc
      · rcases hb'.2 c hc with rfl | rfl <;> decide
    have hcmp : ascii "INFO URL" ++ b' ++ m = (ascii "INFO" ++ (b ++ t)) ++ (e ++ r) := by
      rw [← h1, h2]; simp
    rcases List.append_eq_append_iff.mp hcmp with ⟨a, h3, h4⟩ | ⟨a, h3, h4⟩
    · refine infoUrl_ok.mpr ⟨b', a ++ e, by rw [h1, h4]; simp, hb', a, e, rfl, ?_, he⟩
      intro c hc
      have hmem : c ∈ ascii "INFO" ++ (b ++ t) := by rw [h3]; exact List.mem_append_right _ hc
      rcases List.mem_append.mp hmem with hc | hc
      · have : ∀ c ∈ ascii "INFO", c ≠ 13 ∧ c ≠ 10 := by decide +kernel
        exact this c hc
      · rcases List.mem_append.mp hc with hc | hc
        · rcases hb.2 c hc with rfl | rfl <;> decide
        · exact ht c hc
    · cases a with
      | nil =>
        simp only [List.nil_append] at h4
        simp only [List.append_nil] at h3
        exact infoUrl_ok.mpr ⟨b', e, by rw [h1, ← h4]; simp, hb', [], e, rfl, by intro c hc; simp at hc, he⟩
      | cons c a =>
        exfalso
        obtain ⟨d, u, h5, h6⟩ := eol_head (r := r) he
        rw [h5] at h4
        have hdc : d = c := by simpa using congrArg List.head? h4
        subst hdc
        have := hline d (by rw [h3]; simp)
        rcases h6 with rfl | rfl
        · exact this.1 rfl
        · exact this.2 rfl
  · left
    unfold infoUrl
    change ∃ t, Nom.bind _ _ _ = Except.error (NErr.error t)
    unfold Nom.bind
    cases hx : keyword (ascii "INFO URL") i with
    | ok x => exact absurd ⟨x, hx⟩ hk
    | error e =>
      have : ∃ t, e = .error t := by
        unfold keyword at hx
        rcases terminated_err hx with h | ⟨_, _, _, h⟩
        · unfold tag at h
          split at h <;> simp at h
          exact ⟨_, h.symm⟩
        · exact space1_err h
      obtain ⟨t, rfl⟩ := this
      exact ⟨t, rfl⟩

/-! ### Lines -/

/-- The text of a line, without what follows it. -/
def lineText : Line → Lang
  | .module name => lit "MODULE" ∙ Blanks ∙ Word ∙ Sp ∙ Word ∙ Sp ∙ Word ∙ Sp ∙ Tail name ∙ Eol
  | .info => lit "INFO" ∙ Blanks ∙ Rest ∙ Eol
  | .file id name => lit "FILE" ∙ Blanks ∙ Dec id ∙ Blanks ∙ Name name ∙ Eol
  | .inlineOrigin id name => lit "INLINE_ORIGIN" ∙ Blanks ∙ Dec id ∙ Blanks ∙ Name name ∙ Eol
  | .pub p => lit "PUBLIC" ∙ Blanks ∙ Multiple ∙ Hex 16 p.addr ∙ Blanks ∙ Hex 8 p.parameterSize ∙
      Blanks ∙ Name p.name ∙ Eol
  | .function f => fun t => (lit "FUNC" ∙ Blanks ∙ Multiple ∙ Hex 16 f.addr ∙ Blanks ∙ Hex 8 f.size ∙ Blanks ∙
      Hex 8 f.parameterSize ∙ Blanks ∙ Name f.name ∙ Eol) t ∧ f.lines = [] ∧ f.inlinees = []
  | .stackWin => lit "STACK WIN" ∙ Blanks ∙ Rest ∙ Eol
  | .stackCfi => lit "STACK CFI INIT" ∙ Blanks ∙ Rest ∙ Eol

theorem stops_at_keyword {L : Lang} {s : String} {t r k : Bytes} (h : (lit s ∙ L) t)
    (hc : clash k (ascii s) = true) : ¬ k <+: t ++ r := by
  obtain ⟨_, u, rfl, rfl, _⟩ := h
  rw [List.append_assoc]
  exact not_prefix_of_clash hc

theorem infoUrl_fail {i : Bytes} (h : ¬ ascii "INFO URL" <+: i) : infoUrl i = .error (.error [(i, .tag)]) := keyword_fail h
theorem infoLine_fail {i : Bytes} (h : ¬ ascii "INFO" <+: i) : infoLine i = .error (.error [(i, .tag)]) := keyword_fail h
theorem fileLine_fail {i : Bytes} (h : ¬ ascii "FILE" <+: i) : fileLine i = .error (.error [(i, .tag)]) := keyword_fail h
theorem inlineOriginLine_fail {i : Bytes} (h : ¬ ascii "INLINE_ORIGIN" <+: i) : inlineOriginLine i = .error (.error [(i, .tag)]) := keyword_fail h
theorem publicLine_fail {i : Bytes} (h : ¬ ascii "PUBLIC" <+: i) : publicLine i = .error (.error [(i, .tag)]) := keyword_fail h
theorem funcLine_fail {i : Bytes} (h : ¬ ascii "FUNC" <+: i) : funcLine i = .error (.error [(i, .tag)]) := keyword_fail h
theorem stackWinLine_fail {i : Bytes} (h : ¬ ascii "STACK WIN" <+: i) : stackWinLine i = .error (.error [(i, .tag)]) := keyword_fail h
theorem stackCfiInit_fail {i : Bytes} (h : ¬ ascii "STACK CFI INIT" <+: i) : stackCfiInit i = .error (.error [(i, .tag)]) := keyword_fail h

theorem alt_ok {α : Type} {p : Nom α} {i r : Bytes} {a : α} :
    alt p i = .ok (r, a) ↔ p i = .ok (r, a) := by
  unfold alt
  cases p i with
  | ok x => simp
  | error e => cases e <;> simp

theorem line_ok {i r : Bytes} {l : Line} : line i = .ok (r, l) ↔
    ∃ t w, i = t ++ (w ++ r) ∧ lineText l t ∧ Ws w ∧
      ∀ c, r.head? = some c → ¬ (c = 32 ∨ c = 9 ∨ c = 13 ∨ c = 10) := by
  unfold line
  rw [terminated_ok]
  simp only [alt_ok]
  constructor
  · rintro ⟨m, h, u, hm⟩
    obtain ⟨w, rfl, hw, hs⟩ := multispace0_ok.mp hm
    have key : ∃ t, i = t ++ (w ++ r) ∧ lineText l t := by
      rcases orElse_ok.mp h with h | ⟨_, h⟩
      · obtain ⟨a, h', rfl⟩ := mapTo_ok.mp h
        obtain ⟨s, h''⟩ := infoUrl_infoLine h'
        exact kw_iff.mp (infoLine_ok.mp ⟨s, h''⟩)
      rcases orElse_ok.mp h with h | ⟨_, h⟩
      · obtain ⟨a, h', rfl⟩ := mapTo_ok.mp h
        exact kw_iff.mp (infoLine_ok.mp ⟨a, h'⟩)
      rcases orElse_ok.mp h with h | ⟨_, h⟩
      · obtain ⟨a, h', rfl⟩ := mapTo_ok.mp h
        exact kw_iff.mp (fileLine_ok.mp h')
      rcases orElse_ok.mp h with h | ⟨_, h⟩
      · obtain ⟨a, h', rfl⟩ := mapTo_ok.mp h
        exact kw_iff.mp (inlineOriginLine_ok.mp h')
      rcases orElse_ok.mp h with h | ⟨_, h⟩
      · obtain ⟨a, h', rfl⟩ := mapTo_ok.mp h
        exact kw_iff.mp (publicLine_ok.mp h')
      rcases orElse_ok.mp h with h | ⟨_, h⟩
      · obtain ⟨a, h', rfl⟩ := mapTo_ok.mp h
        obtain ⟨b, t, h1, h2, h3, h4, h5⟩ := funcLine_ok.mp h'
        obtain ⟨t, g1, g2⟩ := kw_iff.mp ⟨b, t, h1, h2, h3⟩
        exact ⟨t, g1, g2, h4, h5⟩
      rcases orElse_ok.mp h with h | ⟨_, h⟩
      · obtain ⟨a, h', rfl⟩ := mapTo_ok.mp h
        exact kw_iff.mp (stackWinLine_ok.mp h')
      rcases orElse_ok.mp h with h | ⟨_, h⟩
      · obtain ⟨a, h', rfl⟩ := mapTo_ok.mp h
        exact kw_iff.mp (stackCfiInit_ok.mp h')
      · obtain ⟨a, h', rfl⟩ := mapTo_ok.mp h
        exact kw_iff.mp (moduleLine_ok.mp h')
    obtain ⟨t, h1, h2⟩ := key
    exact ⟨t, w, h1, h2, hw, hs⟩
  · rintro ⟨t, w, rfl, ht, hw, hs⟩
    refine ⟨w ++ r, ?_, (), multispace0_ok.mpr ⟨w, rfl, hw, hs⟩⟩
    cases l with
    | info =>
      obtain ⟨s, h⟩ := infoLine_ok.mpr (kw_iff.mpr ⟨t, rfl, ht⟩)
      rcases infoUrl_of_infoLine h with h1 | h1
      · obtain ⟨t1, h1⟩ := h1
        rw [orElse_fail (mapTo_fail h1)]
        exact orElse_first (mapTo_ok.mpr ⟨s, h, rfl⟩)
      · exact orElse_first (mapTo_ok.mpr ⟨(), h1, rfl⟩)
    | file id name =>
      rw [orElse_fail (mapTo_fail (infoUrl_fail (stops_at_keyword ht (by decide +kernel)))),
        orElse_fail (mapTo_fail (infoLine_fail (stops_at_keyword ht (by decide +kernel))))]
      exact orElse_first (mapTo_ok.mpr ⟨(id, name), fileLine_ok.mpr (kw_iff.mpr ⟨t, rfl, ht⟩), rfl⟩)
    | inlineOrigin id name =>
      rw [orElse_fail (mapTo_fail (infoUrl_fail (stops_at_keyword ht (by decide +kernel)))),
        orElse_fail (mapTo_fail (infoLine_fail (stops_at_keyword ht (by decide +kernel)))),
        orElse_fail (mapTo_fail (fileLine_fail (stops_at_keyword ht (by decide +kernel))))]
      exact orElse_first (mapTo_ok.mpr ⟨(id, name), inlineOriginLine_ok.mpr (kw_iff.mpr ⟨t, rfl, ht⟩), rfl⟩)
    | pub p =>
      rw [orElse_fail (mapTo_fail (infoUrl_fail (stops_at_keyword ht (by decide +kernel)))),
        orElse_fail (mapTo_fail (infoLine_fail (stops_at_keyword ht (by decide +kernel)))),
        orElse_fail (mapTo_fail (fileLine_fail (stops_at_keyword ht (by decide +kernel)))),
        orElse_fail (mapTo_fail (inlineOriginLine_fail (stops_at_keyword ht (by decide +kernel))))]
      exact orElse_first (mapTo_ok.mpr ⟨p, publicLine_ok.mpr (kw_iff.mpr ⟨t, rfl, ht⟩), rfl⟩)
    | function f =>
      obtain ⟨ht, hl, hi⟩ := ht
      rw [orElse_fail (mapTo_fail (infoUrl_fail (stops_at_keyword ht (by decide +kernel)))),
        orElse_fail (mapTo_fail (infoLine_fail (stops_at_keyword ht (by decide +kernel)))),
        orElse_fail (mapTo_fail (fileLine_fail (stops_at_keyword ht (by decide +kernel)))),
        orElse_fail (mapTo_fail (inlineOriginLine_fail (stops_at_keyword ht (by decide +kernel)))),
        orElse_fail (mapTo_fail (publicLine_fail (stops_at_keyword ht (by decide +kernel))))]
      obtain ⟨b, u, h1, h2, h3⟩ := kw_iff.mpr ⟨t, rfl, ht⟩
      exact orElse_first (mapTo_ok.mpr ⟨f, funcLine_ok.mpr ⟨b, u, h1, h2, h3, hl, hi⟩, rfl⟩)
    | stackWin =>
      rw [orElse_fail (mapTo_fail (infoUrl_fail (stops_at_keyword ht (by decide +kernel)))),
        orElse_fail (mapTo_fail (infoLine_fail (stops_at_keyword ht (by decide +kernel)))),
        orElse_fail (mapTo_fail (fileLine_fail (stops_at_keyword ht (by decide +kernel)))),
        orElse_fail (mapTo_fail (inlineOriginLine_fail (stops_at_keyword ht (by decide +kernel)))),
        orElse_fail (mapTo_fail (publicLine_fail (stops_at_keyword ht (by decide +kernel)))),
        orElse_fail (mapTo_fail (funcLine_fail (stops_at_keyword ht (by decide +kernel))))]
      exact orElse_first (mapTo_ok.mpr ⟨(), stackWinLine_ok.mpr (kw_iff.mpr ⟨t, rfl, ht⟩), rfl⟩)
    | stackCfi =>
      rw [orElse_fail (mapTo_fail (infoUrl_fail (stops_at_keyword ht (by decide +kernel)))),
        orElse_fail (mapTo_fail (infoLine_fail (stops_at_keyword ht (by decide +kernel)))),
        orElse_fail (mapTo_fail (fileLine_fail (stops_at_keyword ht (by decide +kernel)))),
        orElse_fail (mapTo_fail (inlineOriginLine_fail (stops_at_keyword ht (by decide +kernel)))),
        orElse_fail (mapTo_fail (publicLine_fail (stops_at_keyword ht (by decide +kernel)))),
        orElse_fail (mapTo_fail (funcLine_fail (stops_at_keyword ht (by decide +kernel)))),
        orElse_fail (mapTo_fail (stackWinLine_fail (stops_at_keyword ht (by decide +kernel))))]
      exact orElse_first (mapTo_ok.mpr ⟨(), stackCfiInit_ok.mpr (kw_iff.mpr ⟨t, rfl, ht⟩), rfl⟩)
    | module name =>
      rw [orElse_fail (mapTo_fail (infoUrl_fail (stops_at_keyword ht (by decide +kernel)))),
        orElse_fail (mapTo_fail (infoLine_fail (stops_at_keyword ht (by decide +kernel)))),
        orElse_fail (mapTo_fail (fileLine_fail (stops_at_keyword ht (by decide +kernel)))),
        orElse_fail (mapTo_fail (inlineOriginLine_fail (stops_at_keyword ht (by decide +kernel)))),
        orElse_fail (mapTo_fail (publicLine_fail (stops_at_keyword ht (by decide +kernel)))),
        orElse_fail (mapTo_fail (funcLine_fail (stops_at_keyword ht (by decide +kernel)))),
        orElse_fail (mapTo_fail (stackWinLine_fail (stops_at_keyword ht (by decide +kernel)))),
        orElse_fail (mapTo_fail (stackCfiInit_fail (stops_at_keyword ht (by decide +kernel))))]
      exact mapTo_ok.mpr ⟨name, moduleLine_ok.mpr (kw_iff.mpr ⟨t, rfl, ht⟩), rfl⟩

/-! ### What belongs to a function -/

/-- What a record does to the function it belongs to. -/
def addSub (cur : Function) : Sub → Function
  | .origin _ _ => cur
  | .inline depth callLine callFile originId ranges =>
    { cur with inlinees := cur.inlinees ++
        ranges.map fun r => ⟨depth, r.1, r.2, callFile, callLine, originId⟩ }
  | .line l => { cur with lines := cur.lines ++ [l] }

/-- What a record that belongs to a function does to the parser. -/
def noteSub (slf : SymbolParser) : Sub → SymbolParser
  | .origin id name => { slf with inlineOrigins := (id, name) :: slf.inlineOrigins }
  | _ => slf

theorem sp_blanks {b : Bytes} (h : Sp b) : Blanks b := by
  obtain ⟨t, rfl, ht⟩ := h
  refine ⟨by simp, ?_⟩
  intro c hc
  rcases List.mem_cons.mp hc with rfl | hc
  · exact Or.inl rfl
  · exact ht c hc

theorem blanks_sp {k b u : Bytes} (h : k ++ [32] <+: k ++ (b ++ u)) (hb : Blanks b) : Sp b := by
  rw [List.prefix_append_right_inj] at h
  obtain ⟨s, hs⟩ := h
  cases b with
  | nil => exact absurd rfl hb.1
  | cons c b =>
    have : c = 32 := by simpa using (congrArg List.head? hs).symm
    subst this
    exact ⟨b, rfl, fun c hc => hb.2 c (by simp [hc])⟩

theorem sp_prefix {k b u : Bytes} (h : Sp b) : k ++ [32] <+: k ++ (b ++ u) := by
  obtain ⟨t, rfl, _⟩ := h
  exact ⟨t ++ u, by simp⟩

theorem line_no_I {l : SourceLine} {t r : Bytes} (h : (Sub.line l).text t) (s : Bytes) :
    ¬ (73 :: s) <+: t ++ r := by
  obtain ⟨x, y, rfl, hx, _⟩ := h
  rintro ⟨v, hv⟩
  cases x with
  | nil => exact hx.1 rfl
  | cons a x =>
    have : a = 73 := by simpa using (congrArg List.head? hv).symm
    subst this
    exact absurd (hx.2.2.1 73 (by simp)) (by decide)

theorem sub_ok {slf slf' : SymbolParser} {cur cur' : Function} {i r : Bytes} :
    parseFuncSubline slf cur i = .ok (r, (slf', cur')) ↔
      ∃ s t, i = t ++ r ∧ Sub.text s t ∧ slf' = noteSub slf s ∧ cur' = addSub cur s := by
  have hO : ascii "INLINE_ORIGIN " = ascii "INLINE_ORIGIN" ++ [32] := by decide +kernel
  have hI : ascii "INLINE " = ascii "INLINE" ++ [32] := by decide +kernel
  unfold parseFuncSubline
  constructor
  · intro h
    split at h
    · rename_i hp
      rw [List.isPrefixOf_iff_prefix, hO] at hp
      split at h
      · exact absurd h (by simp)
      · rename_i rest id fn heq
        simp only [Except.ok.injEq, Prod.mk.injEq] at h
        obtain ⟨rfl, rfl, rfl⟩ := h
        obtain ⟨b, t, rfl, hb, ht⟩ := inlineOriginLine_ok.mp heq
        exact ⟨.origin id fn, ascii "INLINE_ORIGIN" ++ (b ++ t), by simp,
          ⟨_, _, rfl, rfl, b, t, rfl, blanks_sp hp hb, ht⟩, rfl, rfl⟩
    · split at h
      · rename_i hp
        rw [List.isPrefixOf_iff_prefix, hI] at hp
        split at h
        · exact absurd h (by simp)
        · rename_i rest ins heq
          simp only [Except.ok.injEq, Prod.mk.injEq] at h
          obtain ⟨rfl, rfl, rfl⟩ := h
          obtain ⟨b, t, d, cl, cf, o, rs, rfl, hb, ht, rfl⟩ := inlineLine_ok.mp heq
          exact ⟨.inline d cl cf o rs, ascii "INLINE" ++ (b ++ t), by simp,
            ⟨_, _, rfl, rfl, b, t, rfl, blanks_sp hp hb, ht⟩, rfl, rfl⟩
      · split at h
        · exact absurd h (by simp)
        · rename_i rest l heq
          simp only [Except.ok.injEq, Prod.mk.injEq] at h
          obtain ⟨rfl, rfl, rfl⟩ := h
          obtain ⟨t, rfl, ht⟩ := funcLineData_ok.mp heq
          exact ⟨.line l, t, rfl, ht, rfl, rfl⟩
  · rintro ⟨s, t, rfl, ht, rfl, rfl⟩
    cases s with
    | origin id name =>
      obtain ⟨_, _, rfl, rfl, b, t, rfl, hb, ht⟩ := ht
      rw [if_pos (by rw [List.isPrefixOf_iff_prefix, hO]; simp only [List.append_assoc]; exact sp_prefix hb)]
      rw [inlineOriginLine_ok.mpr ⟨b, t, by simp only [List.append_assoc]; rfl, sp_blanks hb, ht⟩]
      rfl
    | inline d cl cf o rs =>
      obtain ⟨_, _, rfl, rfl, b, t, rfl, hb, ht⟩ := ht
      rw [if_neg, if_pos (by rw [List.isPrefixOf_iff_prefix, hI]; simp only [List.append_assoc]; exact sp_prefix hb)]
      · rw [inlineLine_ok.mpr ⟨b, t, d, cl, cf, o, rs, by simp only [List.append_assoc]; rfl, sp_blanks hb, ht, rfl⟩]
        rfl
      · rw [List.isPrefixOf_iff_prefix]
        obtain ⟨b', rfl, _⟩ := hb
        have h2 : ascii "INLINE" ++ (32 :: b' ++ t) ++ r = (ascii "INLINE" ++ [32]) ++ (b' ++ (t ++ r)) := by simp
        rw [h2]
        exact not_prefix_of_clash (by decide +kernel)
    | line l =>
      rw [if_neg, if_neg]
      · rw [funcLineData_ok.mpr ⟨t, rfl, ht⟩]
        rfl
      · rw [List.isPrefixOf_iff_prefix]
        exact line_no_I ht _
      · rw [List.isPrefixOf_iff_prefix]
        exact line_no_I ht _

/-- A record of its own is not taken for one that belongs to a function. -/
theorem sub_fails_on_line {slf : SymbolParser} {cur : Function} {l : Line} {t r : Bytes}
    (h : lineText l t) (hno : ¬ ascii "INLINE_ORIGIN " <+: t ++ r) :
    ∃ e, parseFuncSubline slf cur (t ++ r) = .error e := by
  cases hp : parseFuncSubline slf cur (t ++ r) with
  | error e => exact ⟨e, rfl⟩
  | ok x =>
    exfalso
    obtain ⟨r', slf', cur'⟩ := x
    obtain ⟨s, t', h1, h2, _, _⟩ := sub_ok.mp hp
    -- every line starts with a keyword, followed by a blank
    have hk : ∃ k b u, (k, b) ∈ [(ascii "MODULE", 1), (ascii "INFO", 1), (ascii "FILE", 1), (ascii "INLINE_ORIGIN", 1),
        (ascii "PUBLIC", 1), (ascii "FUNC", 1), (ascii "STACK", (1 : Nat))] ∧ ∃ c, Blank c ∧ t = k ++ (c :: u) := by
      have gen : ∀ {s : String} {L : Lang}, (lit s ∙ Blanks ∙ L) t → ∃ c u, Blank c ∧ t = ascii s ++ c :: u := by
        rintro s L ⟨_, _, rfl, rfl, b, y, rfl, hb, _⟩
        cases b with
        | nil => exact absurd rfl hb.1
        | cons c b => exact ⟨c, b ++ y, hb.2 c (by simp), rfl⟩
      cases l with
      | module n => obtain ⟨c, u, hc, h⟩ := gen h; exact ⟨_, 1, u, by simp, c, hc, h⟩
      | info => obtain ⟨c, u, hc, h⟩ := gen h; exact ⟨ascii "INFO", 1, u, by simp, c, hc, h⟩
      | file id n => obtain ⟨c, u, hc, h⟩ := gen h; exact ⟨ascii "FILE", 1, u, by simp, c, hc, h⟩
      | inlineOrigin id n => obtain ⟨c, u, hc, h⟩ := gen h; exact ⟨ascii "INLINE_ORIGIN", 1, u, by simp, c, hc, h⟩
      | pub p => obtain ⟨c, u, hc, h⟩ := gen h; exact ⟨ascii "PUBLIC", 1, u, by simp, c, hc, h⟩
      | function f => obtain ⟨c, u, hc, h⟩ := gen h.1; exact ⟨ascii "FUNC", 1, u, by simp, c, hc, h⟩
      | stackWin =>
        obtain ⟨c, u, hc, h⟩ := gen h
        refine ⟨ascii "STACK", 1, ascii "WIN" ++ c :: u, by simp, 32, Or.inl rfl, ?_⟩
        rw [h]
        have : ascii "STACK WIN" = ascii "STACK" ++ (32 :: ascii "WIN") := by decide +kernel
        rw [this]; simp
      | stackCfi =>
        obtain ⟨c, u, hc, h⟩ := gen h
        refine ⟨ascii "STACK", 1, ascii "CFI INIT" ++ c :: u, by simp, 32, Or.inl rfl, ?_⟩
        rw [h]
        have : ascii "STACK CFI INIT" = ascii "STACK" ++ (32 :: ascii "CFI INIT") := by decide +kernel
        rw [this]; simp
    obtain ⟨k, b, u, hk, c, hc, rfl⟩ := hk
    cases s with
    | origin id name =>
      apply hno
      rw [h1]
      have hO : ascii "INLINE_ORIGIN " = ascii "INLINE_ORIGIN" ++ [32] := by decide +kernel
      rw [hO]
      obtain ⟨_, _, rfl, rfl, b, t, rfl, hb, ht⟩ := h2
      simp only [List.append_assoc]; exact sp_prefix hb
    | inline d cl cf o rs =>
      obtain ⟨_, _, rfl, rfl, b, t, rfl, ⟨b', rfl, _⟩, ht⟩ := h2
      have h2 : ascii "INLINE" ++ (32 :: b' ++ t) ++ r' = (ascii "INLINE" ++ [32]) ++ (b' ++ (t ++ r')) := by simp
      rw [h2] at h1
      have hpre : k <+: (ascii "INLINE" ++ [32]) ++ (b' ++ (t ++ r')) := ⟨c :: u ++ r, by rw [← h1]; simp⟩
      simp only [List.mem_cons, Prod.mk.injEq, List.not_mem_nil, or_false] at hk
      rcases hk with ⟨rfl, _⟩ | ⟨rfl, _⟩ | ⟨rfl, _⟩ | ⟨rfl, _⟩ | ⟨rfl, _⟩ | ⟨rfl, _⟩ | ⟨rfl, _⟩ <;>
        exact not_prefix_of_clash (by decide +kernel) hpre
    | line ln =>
      obtain ⟨x, _, rfl, hx, bb, y, rfl, hb, _⟩ := h2
      -- the first character that is not a digit is not a blank
      cases bb with
      | nil => exact hb.1 rfl
      | cons d bb =>
        have hd : Blank d := hb.2 d (by simp)
        have hcmp : k ++ (c :: u) ++ r = x ++ (d :: (bb ++ y ++ r')) := by rw [h1]; simp
        have bad : ∃ n : Nat, ∃ a, k[n]? = some a ∧ ¬ IsDigit 16 a ∧ ¬ Blank a ∧
            ∀ m < n, ∀ a, k[m]? = some a → ¬ Blank a := by
          simp only [List.mem_cons, Prod.mk.injEq, List.not_mem_nil, or_false] at hk
          rcases hk with ⟨rfl, _⟩ | ⟨rfl, _⟩ | ⟨rfl, _⟩ | ⟨rfl, _⟩ | ⟨rfl, _⟩ | ⟨rfl, _⟩ | ⟨rfl, _⟩
          · exact ⟨0, 77, by decide +kernel, by decide, by unfold Blank; decide, by omega⟩
          · exact ⟨0, 73, by decide +kernel, by decide, by unfold Blank; decide, by omega⟩
          · refine ⟨1, 73, by decide +kernel, by decide, by unfold Blank; decide, ?_⟩
            intro m hm a ha
            obtain rfl : m = 0 := by omega
            have : (ascii "FILE")[0]? = some 70 := by decide +kernel
            rw [this] at ha; cases ha; unfold Blank; decide
          · exact ⟨0, 73, by decide +kernel, by decide, by unfold Blank; decide, by omega⟩
          · exact ⟨0, 80, by decide +kernel, by decide, by unfold Blank; decide, by omega⟩
          · refine ⟨1, 85, by decide +kernel, by decide, by unfold Blank; decide, ?_⟩
            intro m hm a ha
            obtain rfl : m = 0 := by omega
            have : (ascii "FUNC")[0]? = some 70 := by decide +kernel
            rw [this] at ha; cases ha; unfold Blank; decide
          · exact ⟨0, 83, by decide +kernel, by decide, by unfold Blank; decide, by omega⟩
        obtain ⟨n, a, ha, hna, hba, hbefore⟩ := bad
        have hn : n < k.length := (List.getElem?_eq_some_iff.mp ha).1
        have hL : (k ++ (c :: u) ++ r)[n]? = some a := by
          rw [List.append_assoc, List.getElem?_append_left hn]; exact ha
        rw [hcmp] at hL
        rcases Nat.lt_trichotomy n x.length with hlt | heq | hgt
        · rw [List.getElem?_append_left hlt] at hL
          exact hna (hx.2.2.1 a (List.mem_of_getElem? hL))
        · rw [List.getElem?_append_right (by omega), heq] at hL
          simp at hL
          exact hba (hL ▸ hd)
        · have h3 : (k ++ (c :: u) ++ r)[x.length]? = some d := by
            rw [hcmp, List.getElem?_append_right (by omega)]; simp
          rw [List.append_assoc, List.getElem?_append_left (by omega)] at h3
          exact hbefore x.length hgt d h3 hd

end Blazesym.Breakpad
