import Verif.Breakpad.ParserLemmas

/-! Lemmas about the Breakpad parser: the records. -/

set_option autoImplicit false

namespace Blazesym.Breakpad
open Blazesym.Util Blazesym.Spec Blazesym.Spec.Breakpad

variable {α β : Type}

theorem tail_of_stop {n e r : Bytes} (hr : Rest n) (h : Stop (n ++ (e ++ r))) : Tail n n := by
  refine ⟨rfl, hr, ?_⟩
  intro c hc
  cases n with
  | nil => simp at hc
  | cons a t => exact h c (by simpa using hc)

theorem stop_of_tail {n t e r : Bytes} (h : Tail n t) (he : Eol e) : Stop (n ++ (e ++ r)) := by
  obtain ⟨rfl, _, h2⟩ := h
  cases t with
  | nil =>
    obtain ⟨c, t, h3, h4⟩ := eol_head (r := r) he
    rw [List.nil_append, h3]
    intro d hd
    simp at hd; subst hd
    rintro (rfl | rfl) <;> rcases h4 with h | h <;> simp at h
  | cons a t => intro c hc; exact h2 c (by simpa using hc)

theorem fileLike_ok {k i r : Bytes} {id : Nat} {name : Bytes} :
    (keyword k >>= fun _ => cut (do
      let id ← terminated decimalU32 space1
      let filename ← nameField
      pure (id, filename)) : Nom (Nat × Bytes)) i = .ok (r, (id, name)) ↔
    ∃ b t, i = k ++ (b ++ (t ++ r)) ∧ Blanks b ∧ (Dec id ∙ Blanks ∙ Name name ∙ Eol) t := by
  rw [nom_bind_ok]
  constructor
  · rintro ⟨m, u, h1, h2⟩
    rw [keyword_ok] at h1
    rw [cut_ok, nom_bind_ok] at h2
    obtain ⟨m2, id', h2, h3⟩ := h2
    rw [nom_bind_ok] at h3
    obtain ⟨m3, name', h3, h4⟩ := h3
    rw [nom_pure_ok] at h4
    obtain ⟨rfl, h4⟩ := h4
    cases h4
    rw [decField_ok] at h2
    rw [nameField_ok] at h3
    obtain ⟨b, rfl, hb, _⟩ := h1
    obtain ⟨d, b', rfl, hd, hb', hs⟩ := h2
    obtain ⟨e, rfl, hn, hu, he⟩ := h3
    refine ⟨b, d ++ (b' ++ (name ++ e)), by simp, hb, d, _, rfl, hd, b', _, rfl, hb', name, e, rfl, ⟨?_, hu⟩, he⟩
    exact tail_of_stop (e := e) (r := r) hn (by simpa using hs)
  · rintro ⟨b, t, rfl, hb, d, _, rfl, hd, b', _, rfl, hb', n, e, rfl, ⟨hn, hu⟩, he⟩
    have hn' := hn
    obtain ⟨rfl, hn1, hn2⟩ := hn'
    refine ⟨d ++ (b' ++ (n ++ (e ++ r))), (), keyword_ok.mpr ⟨b, by simp, hb, dec_stop hd⟩, ?_⟩
    rw [cut_ok, nom_bind_ok]
    refine ⟨n ++ (e ++ r), id, decField_ok.mpr ⟨d, b', by simp, hd, hb', stop_of_tail hn he⟩, ?_⟩
    rw [nom_bind_ok]
    exact ⟨r, n, nameField_ok.mpr ⟨e, by simp, hn1, hu, he⟩, nom_pure_ok.mpr ⟨rfl, rfl⟩⟩

theorem fileLine_ok {i r : Bytes} {id : Nat} {name : Bytes} : fileLine i = .ok (r, (id, name)) ↔
    ∃ b t, i = ascii "FILE" ++ (b ++ (t ++ r)) ∧ Blanks b ∧ (Dec id ∙ Blanks ∙ Name name ∙ Eol) t :=
  fileLike_ok

theorem inlineOriginLine_ok {i r : Bytes} {id : Nat} {name : Bytes} :
    inlineOriginLine i = .ok (r, (id, name)) ↔
    ∃ b t, i = ascii "INLINE_ORIGIN" ++ (b ++ (t ++ r)) ∧ Blanks b ∧
      (Dec id ∙ Blanks ∙ Name name ∙ Eol) t :=
  fileLike_ok

/-! ### The optional marker -/

theorem hex_head_not_m {n v : Nat} {t r : Bytes} (h : Hex n v t) : ¬ ascii "m" <+: t ++ r := by
  rintro ⟨s, hs⟩
  cases t with
  | nil => exact h.1 rfl
  | cons a t =>
    have : a = 109 := by
      have := congrArg List.head? hs
      simp [ascii] at this
      exact this.symm
    subst this
    exact absurd (h.2.2.1 109 (by simp)) (by decide)

/-- The marker and the number that follows it. -/
theorem multiple_ok {γ : Type} {n : Nat} {i r : Bytes} {x : γ} {f : Option Unit → Nat → Nom γ}
    (hf : ∀ u u' v, f u v = f u' v) :
    (opt (terminated (tag (ascii "m")) space1) >>= fun u => terminated (hexStr n) space1 >>= f u : Nom γ) i
        = .ok (r, x) ↔
    ∃ m t b v k, i = m ++ (t ++ (b ++ k)) ∧ Multiple m ∧ Hex (n * 2) v t ∧ Blanks b ∧ Stop k ∧
      f none v k = .ok (r, x) := by
  rw [nom_bind_ok]
  constructor
  · rintro ⟨m1, u, h1, h2⟩
    rw [nom_bind_ok] at h2
    obtain ⟨m2, v, h2, h3⟩ := h2
    rw [hexField_ok] at h2
    obtain ⟨t, b, rfl, ht, hb, hs⟩ := h2
    rw [hf u none] at h3
    unfold opt at h1
    cases hm : terminated (tag (ascii "m")) space1 i with
    | ok y =>
      obtain ⟨y1, y2⟩ := y
      rw [hm] at h1
      simp only [Except.ok.injEq, Prod.mk.injEq] at h1
      obtain ⟨rfl, rfl⟩ := h1
      have hk : keyword (ascii "m") i = _ := hm
      rw [keyword_ok] at hk
      obtain ⟨bm, rfl, hbm, _⟩ := hk
      exact ⟨ascii "m" ++ bm, t, b, v, m2, by simp, Or.inr ⟨_, _, rfl, rfl, hbm⟩, ht, hb, hs, h3⟩
    | error e =>
      rw [hm] at h1
      cases e with
      | failure => exact absurd h1 (by simp)
      | error =>
        simp only [Except.ok.injEq, Prod.mk.injEq] at h1
        obtain ⟨rfl, rfl⟩ := h1
        exact ⟨[], t, b, v, m2, by simp, Or.inl rfl, ht, hb, hs, h3⟩
  · rintro ⟨m, t, b, v, k, rfl, hm, ht, hb, hs, h3⟩
    have hnum : terminated (hexStr n) space1 (t ++ (b ++ k)) = .ok (k, v) :=
      hexField_ok.mpr ⟨t, b, by simp, ht, hb, hs⟩
    rcases hm with rfl | ⟨_, bm, rfl, rfl, hbm⟩
    · refine ⟨t ++ (b ++ k), none, ?_, nom_bind_ok.mpr ⟨k, v, hnum, h3⟩⟩
      unfold opt
      have : terminated (tag (ascii "m")) space1 ([] ++ (t ++ (b ++ k))) = .error (.error [([] ++ (t ++ (b ++ k)), .tag)]) := by
        unfold terminated
        change Nom.bind _ _ _ = _
        unfold Nom.bind tag
        rw [if_neg]
        rw [List.isPrefixOf_iff_prefix]
        rw [List.nil_append]
        exact hex_head_not_m ht
      rw [this]; rfl
    · refine ⟨t ++ (b ++ k), some (), ?_, nom_bind_ok.mpr ⟨k, v, hnum, by rw [hf _ none]; exact h3⟩⟩
      unfold opt
      have : terminated (tag (ascii "m")) space1 (ascii "m" ++ bm ++ (t ++ (b ++ k))) = .ok (t ++ (b ++ k), ()) :=
        keyword_ok.mpr ⟨bm, rfl, hbm, hex_stop ht⟩
      rw [this]

theorem publicLine_ok {i r : Bytes} {p : PublicSymbol} : publicLine i = .ok (r, p) ↔
    ∃ b t, i = ascii "PUBLIC" ++ (b ++ (t ++ r)) ∧ Blanks b ∧
      (Multiple ∙ Hex 16 p.addr ∙ Blanks ∙ Hex 8 p.parameterSize ∙ Blanks ∙ Name p.name ∙ Eol) t := by
  unfold publicLine
  rw [nom_bind_ok]
  constructor
  · rintro ⟨m, u, h1, h2⟩
    rw [keyword_ok] at h1
    obtain ⟨b, rfl, hb, _⟩ := h1
    rw [cut_ok, multiple_ok (fun _ _ _ => rfl)] at h2
    obtain ⟨mm, t1, b1, addr, k1, rfl, hm, ht1, hb1, hs1, h3⟩ := h2
    rw [nom_bind_ok] at h3
    obtain ⟨k2, ps, h3, h4⟩ := h3
    rw [hexField_ok] at h3
    obtain ⟨t2, b2, rfl, ht2, hb2, hs2⟩ := h3
    rw [nom_bind_ok] at h4
    obtain ⟨k3, nm, h4, h5⟩ := h4
    rw [nameField_ok] at h4
    obtain ⟨e, rfl, hn, hu, he⟩ := h4
    rw [nom_pure_ok] at h5
    obtain ⟨rfl, rfl⟩ := h5
    exact ⟨b, mm ++ (t1 ++ (b1 ++ (t2 ++ (b2 ++ (nm ++ e))))), by simp, hb, mm, _, rfl, hm, t1, _, rfl, ht1,
      b1, _, rfl, hb1, t2, _, rfl, ht2, b2, _, rfl, hb2, nm, e, rfl,
      ⟨tail_of_stop (e := e) (r := r) hn (by simpa using hs2), hu⟩, he⟩
  · rintro ⟨b, t, rfl, hb, mm, _, rfl, hm, t1, _, rfl, ht1, b1, _, rfl, hb1, t2, _, rfl, ht2, b2, _, rfl, hb2,
      n, e, rfl, ⟨hn, hu⟩, he⟩
    obtain ⟨hn0, hn1, hn2⟩ := id hn
    have hstop : Stop (mm ++ (t1 ++ (b1 ++ (t2 ++ (b2 ++ (n ++ (e ++ r))))))) := by
      rcases hm with rfl | ⟨_, bm, rfl, rfl, _⟩
      · rw [List.nil_append]; exact hex_stop ht1
      · intro c hc; simp [ascii] at hc; subst hc; unfold Blank; decide
    refine ⟨mm ++ (t1 ++ (b1 ++ (t2 ++ (b2 ++ (n ++ (e ++ r)))))), (),
      keyword_ok.mpr ⟨b, by simp, hb, hstop⟩, ?_⟩
    rw [cut_ok, multiple_ok (fun _ _ _ => rfl)]
    refine ⟨mm, t1, b1, p.addr, _, rfl, hm, ht1, hb1, hex_stop ht2, ?_⟩
    rw [nom_bind_ok]
    refine ⟨n ++ (e ++ r), p.parameterSize, hexField_ok.mpr ⟨t2, b2, by simp, ht2, hb2, hn0 ▸ stop_of_tail hn he⟩, ?_⟩
    rw [nom_bind_ok]
    exact ⟨r, n, nameField_ok.mpr ⟨e, by simp, hn1, hn0 ▸ hu, he⟩, nom_pure_ok.mpr ⟨rfl, by rw [hn0]⟩⟩

theorem funcLine_ok {i r : Bytes} {f : Function} : funcLine i = .ok (r, f) ↔
    ∃ b t, i = ascii "FUNC" ++ (b ++ (t ++ r)) ∧ Blanks b ∧
      (Multiple ∙ Hex 16 f.addr ∙ Blanks ∙ Hex 8 f.size ∙ Blanks ∙ Hex 8 f.parameterSize ∙ Blanks ∙
        Name f.name ∙ Eol) t ∧ f.lines = [] ∧ f.inlinees = [] := by
  unfold funcLine
  rw [nom_bind_ok]
  constructor
  · rintro ⟨m, u, h1, h2⟩
    rw [keyword_ok] at h1
    obtain ⟨b, rfl, hb, _⟩ := h1
    rw [cut_ok, multiple_ok (fun _ _ _ => rfl)] at h2
    obtain ⟨mm, t1, b1, addr, k1, rfl, hm, ht1, hb1, hs1, h3⟩ := h2
    rw [nom_bind_ok] at h3
    obtain ⟨k2, sz, h3, h4⟩ := h3
    rw [hexField_ok] at h3
    obtain ⟨t2, b2, rfl, ht2, hb2, hs2⟩ := h3
    rw [nom_bind_ok] at h4
    obtain ⟨k3, ps, h4, h5⟩ := h4
    rw [hexField_ok] at h4
    obtain ⟨t3, b3, rfl, ht3, hb3, hs3⟩ := h4
    rw [nom_bind_ok] at h5
    obtain ⟨k4, nm, h5, h6⟩ := h5
    rw [nameField_ok] at h5
    obtain ⟨e, rfl, hn, hu, he⟩ := h5
    rw [nom_pure_ok] at h6
    obtain ⟨rfl, rfl⟩ := h6
    exact ⟨b, mm ++ (t1 ++ (b1 ++ (t2 ++ (b2 ++ (t3 ++ (b3 ++ (nm ++ e))))))), by simp, hb, ⟨mm, _, rfl, hm,
      t1, _, rfl, ht1, b1, _, rfl, hb1, t2, _, rfl, ht2, b2, _, rfl, hb2, t3, _, rfl, ht3, b3, _, rfl, hb3,
      nm, e, rfl, ⟨tail_of_stop (e := e) (r := r) hn (by simpa using hs3), hu⟩, he⟩, rfl, rfl⟩
  · rintro ⟨b, t, rfl, hb, ⟨mm, _, rfl, hm, t1, _, rfl, ht1, b1, _, rfl, hb1, t2, _, rfl, ht2, b2, _, rfl, hb2,
      t3, _, rfl, ht3, b3, _, rfl, hb3, n, e, rfl, ⟨hn, hu⟩, he⟩, hl, hi⟩
    obtain ⟨hn0, hn1, hn2⟩ := id hn
    have hstop : Stop (mm ++ (t1 ++ (b1 ++ (t2 ++ (b2 ++ (t3 ++ (b3 ++ (n ++ (e ++ r))))))))) := by
      rcases hm with rfl | ⟨_, bm, rfl, rfl, _⟩
      · rw [List.nil_append]; exact hex_stop ht1
      · intro c hc; simp [ascii] at hc; subst hc; unfold Blank; decide
    refine ⟨mm ++ (t1 ++ (b1 ++ (t2 ++ (b2 ++ (t3 ++ (b3 ++ (n ++ (e ++ r)))))))), (),
      keyword_ok.mpr ⟨b, by simp, hb, hstop⟩, ?_⟩
    rw [cut_ok, multiple_ok (fun _ _ _ => rfl)]
    refine ⟨mm, t1, b1, f.addr, _, rfl, hm, ht1, hb1, hex_stop ht2, ?_⟩
    rw [nom_bind_ok]
    refine ⟨t3 ++ (b3 ++ (n ++ (e ++ r))), f.size, hexField_ok.mpr ⟨t2, b2, by simp, ht2, hb2, hex_stop ht3⟩, ?_⟩
    rw [nom_bind_ok]
    refine ⟨n ++ (e ++ r), f.parameterSize, hexField_ok.mpr ⟨t3, b3, by simp, ht3, hb3, hn0 ▸ stop_of_tail hn he⟩, ?_⟩
    rw [nom_bind_ok]
    refine ⟨r, n, nameField_ok.mpr ⟨e, by simp, hn1, hn0 ▸ hu, he⟩, nom_pure_ok.mpr ⟨rfl, ?_⟩⟩
    obtain ⟨a1, a2, a3, a4, a5, a6⟩ := f
    simp only at hl hi hn0
    rw [hl, hi, hn0]

theorem funcLineData_ok {i r : Bytes} {l : SourceLine} : funcLineData i = .ok (r, l) ↔
    ∃ t, i = t ++ r ∧ (Sub.line l).text t := by
  unfold funcLineData
  rw [nom_bind_ok]
  constructor
  · rintro ⟨m1, addr, h1, h2⟩
    rw [nom_bind_ok] at h2
    obtain ⟨m2, size, h2, h3⟩ := h2
    rw [nom_bind_ok] at h3
    obtain ⟨m3, line, h3, h4⟩ := h3
    rw [nom_bind_ok] at h4
    obtain ⟨m4, file, h4, h5⟩ := h4
    rw [nom_pure_ok] at h5
    obtain ⟨rfl, rfl⟩ := h5
    rw [decEol_ok] at h4
    obtain ⟨t4, e, rfl, ht4, he⟩ := h4
    rw [decField_ok] at h3
    obtain ⟨t3, b3, rfl, ht3, hb3, _⟩ := h3
    rw [hexField_ok] at h1 h2
    obtain ⟨t2, b2, rfl, ht2, hb2, _⟩ := h2
    obtain ⟨t1, b1, rfl, ht1, hb1, _⟩ := h1
    exact ⟨t1 ++ (b1 ++ (t2 ++ (b2 ++ (t3 ++ (b3 ++ (t4 ++ e)))))), by simp, t1, _, rfl, ht1, b1, _, rfl, hb1,
      t2, _, rfl, ht2, b2, _, rfl, hb2, t3, _, rfl, ht3, b3, _, rfl, hb3, t4, _, rfl, ht4, he⟩
  · rintro ⟨t, rfl, t1, _, rfl, ht1, b1, _, rfl, hb1, t2, _, rfl, ht2, b2, _, rfl, hb2, t3, _, rfl, ht3, b3, _,
      rfl, hb3, t4, e, rfl, ht4, he⟩
    refine ⟨t2 ++ (b2 ++ (t3 ++ (b3 ++ (t4 ++ (e ++ r))))), l.addr,
      hexField_ok.mpr ⟨t1, b1, by simp, ht1, hb1, hex_stop ht2⟩, ?_⟩
    rw [nom_bind_ok]
    refine ⟨t3 ++ (b3 ++ (t4 ++ (e ++ r))), l.size,
      hexField_ok.mpr ⟨t2, b2, by simp, ht2, hb2, dec_stop ht3⟩, ?_⟩
    rw [nom_bind_ok]
    refine ⟨t4 ++ (e ++ r), l.line, decField_ok.mpr ⟨t3, b3, by simp, ht3, hb3, dec_stop ht4⟩, ?_⟩
    rw [nom_bind_ok]
    exact ⟨r, l.file, decEol_ok.mpr ⟨t4, e, by simp, ht4, he⟩, nom_pure_ok.mpr ⟨rfl, rfl⟩⟩

/-! ### Inlined calls -/

theorem inlineAddressRange_ok {i r : Bytes} {x : Nat × Nat} : inlineAddressRange i = .ok (r, x) ↔
    ∃ t b s, i = t ++ (b ++ (s ++ r)) ∧ Hex 16 x.1 t ∧ Blanks b ∧ Hex 8 x.2 s ∧
      (s.length = 8 ∨ ∀ c, r.head? = some c → ¬ IsDigit 16 c) := by
  unfold inlineAddressRange
  rw [nom_bind_ok]
  constructor
  · rintro ⟨m, a, h1, h2⟩
    rw [nom_bind_ok] at h2
    obtain ⟨m2, sz, h2, h3⟩ := h2
    rw [nom_pure_ok] at h3
    obtain ⟨rfl, rfl⟩ := h3
    rw [hexStr_ok] at h2
    obtain ⟨s, rfl, hs, hs'⟩ := h2
    rw [hexField_ok] at h1
    obtain ⟨t, b, rfl, ht, hb, _⟩ := h1
    exact ⟨t, b, s, by simp, ht, hb, hs, hs'⟩
  · rintro ⟨t, b, s, rfl, ht, hb, hs, hs'⟩
    refine ⟨s ++ r, x.1, hexField_ok.mpr ⟨t, b, by simp, ht, hb, hex_stop hs⟩, ?_⟩
    rw [nom_bind_ok]
    exact ⟨r, x.2, hexStr_ok.mpr ⟨s, rfl, hs, hs'⟩, nom_pure_ok.mpr ⟨rfl, rfl⟩⟩

theorem space1_err {i : Bytes} {e : NErr} (h : space1 i = .error e) : ∃ t, e = .error t := by
  unfold space1 at h
  split at h
  · simp at h; exact ⟨_, h.symm⟩
  · exact absurd h (by simp)

theorem hexStr_err {n : Nat} {i : Bytes} {e : NErr} (h : hexStr n i = .error e) : ∃ t, e = .error t := by
  unfold hexStr at h
  simp only at h
  split at h
  · simp at h; exact ⟨_, h.symm⟩
  · exact absurd h (by simp)

theorem nom_bind_err {p : Nom α} {f : α → Nom β} {i : Bytes} {e : NErr} (h : (p >>= f) i = .error e) :
    p i = .error e ∨ ∃ m a, p i = .ok (m, a) ∧ f a m = .error e := by
  change Nom.bind p f i = _ at h
  unfold Nom.bind at h
  cases hp : p i with
  | error e' => rw [hp] at h; left; simpa using h
  | ok x => rw [hp] at h; right; exact ⟨x.1, x.2, rfl, h⟩

theorem nom_pure_err {a : α} {i : Bytes} {e : NErr} : ¬ (pure a : Nom α) i = .error e := by
  intro h; exact absurd (show Except.ok (i, a) = Except.error e from h) (by simp)

theorem terminated_err {p : Nom α} {q : Nom β} {i : Bytes} {e : NErr} (h : terminated p q i = .error e) :
    p i = .error e ∨ ∃ m a, p i = .ok (m, a) ∧ q m = .error e := by
  unfold terminated at h
  rcases nom_bind_err h with h | ⟨m, a, h1, h2⟩
  · exact Or.inl h
  · rcases nom_bind_err h2 with h | ⟨_, _, _, h⟩
    · exact Or.inr ⟨m, a, h1, h⟩
    · exact absurd h nom_pure_err

theorem inlineAddressRange_err {i : Bytes} {e : NErr} (h : inlineAddressRange i = .error e) : ∃ t, e = .error t := by
  unfold inlineAddressRange at h
  rcases nom_bind_err h with h | ⟨m, a, h1, h2⟩
  · rcases terminated_err h with h | ⟨_, _, _, h⟩
    · exact hexStr_err h
    · exact space1_err h
  · rcases nom_bind_err h2 with h | ⟨_, _, _, h⟩
    · exact hexStr_err h
    · exact absurd h nom_pure_err

/-- The ranges after the first one. -/
def More : List (Nat × Nat) → Lang
  | [] => fun t => t = []
  | x :: xs => Blanks ∙ Hex 16 x.1 ∙ Blanks ∙ Hex 8 x.2 ∙ More xs

theorem ranges_more (x : Nat × Nat) (xs : List (Nat × Nat)) (t : Bytes) :
    Ranges (x :: xs) t ↔ (Hex 16 x.1 ∙ Blanks ∙ Hex 8 x.2 ∙ More xs) t := by
  induction xs generalizing x t with
  | nil =>
    constructor
    · rintro ⟨a, _, rfl, ha, b, c, rfl, hb, hc⟩
      exact ⟨a, _, rfl, ha, b, _, rfl, hb, c, [], by simp, hc, rfl⟩
    · rintro ⟨a, _, rfl, ha, b, _, rfl, hb, c, _, rfl, hc, rfl⟩
      exact ⟨a, _, rfl, ha, b, _, rfl, hb, by simpa using hc⟩
  | cons y ys ih =>
    constructor
    · rintro ⟨a, _, rfl, ha, b, _, rfl, hb, c, _, rfl, hc, d, u, rfl, hd, hu⟩
      exact ⟨a, _, rfl, ha, b, _, rfl, hb, c, _, rfl, hc, d, u, rfl, hd, (ih y u).mp hu⟩
    · rintro ⟨a, _, rfl, ha, b, _, rfl, hb, c, _, rfl, hc, d, u, rfl, hd, hu⟩
      exact ⟨a, _, rfl, ha, b, _, rfl, hb, c, _, rfl, hc, d, u, rfl, hd, (ih y u).mpr hu⟩

/-- What follows a range is not a digit. -/
theorem more_head {xs : List (Nat × Nat)} {t e r : Bytes} (h : More xs t) (he : Eol e) :
    ∀ c, (t ++ (e ++ r)).head? = some c → ¬ IsDigit 16 c := by
  intro c hc
  cases xs with
  | nil =>
    have : t = [] := h
    subst this
    obtain ⟨d, u, h1, h2⟩ := eol_head (r := r) he
    rw [List.nil_append, h1] at hc
    cases hc
    exact eol_not_digit (by omega) h2
  | cons x xs =>
    obtain ⟨b, u, rfl, hb, _⟩ := h
    obtain ⟨d, v, h1, h2⟩ := blanks_head (r := u ++ (e ++ r)) hb
    rw [List.append_assoc, h1] at hc
    cases hc
    exact blank_not_digit (by omega) h2

theorem blank_not_eol {b u e r : Bytes} (hb : Blanks b) (he : Eol e) (h : b ++ u = e ++ r) : False := by
  obtain ⟨c, v, h1, h2⟩ := blanks_head (r := u) hb
  obtain ⟨d, w, h3, h4⟩ := eol_head (r := r) he
  rw [h1, h3] at h
  cases h
  rcases h2 with rfl | rfl <;> rcases h4 with h | h <;> simp at h

theorem separatedLoop_ok (fuel : Nat) (acc : List (Nat × Nat)) (i r : Bytes) (out : List (Nat × Nat))
    (hf : i.length < fuel) :
    (∃ m, separatedLoop space1 inlineAddressRange fuel acc i = .ok (m, out) ∧ myEol m = .ok (r, ())) ↔
    ∃ xs t e, out = acc ++ xs ∧ i = t ++ (e ++ r) ∧ More xs t ∧ Eol e := by
  induction fuel generalizing acc i with
  | zero => omega
  | succ n ih =>
    unfold separatedLoop
    cases hs : space1 i with
    | error e =>
      obtain ⟨tr, rfl⟩ := space1_err hs
      constructor
      · rintro ⟨m, h1, h2⟩
        simp only [Except.ok.injEq, Prod.mk.injEq] at h1
        obtain ⟨rfl, rfl⟩ := h1
        rw [myEol_ok] at h2
        obtain ⟨e, rfl, he⟩ := h2
        exact ⟨[], [], e, by simp, rfl, rfl, he⟩
      · rintro ⟨xs, t, e, rfl, rfl, hm, he⟩
        cases xs with
        | nil =>
          have : t = [] := hm
          subst this
          exact ⟨_, by simp, myEol_ok.mpr ⟨e, rfl, he⟩⟩
        | cons x xs =>
          exfalso
          obtain ⟨b, _, rfl, hb, a, v, rfl, ha, _⟩ := hm
          have : space1 (b ++ (a ++ v) ++ (e ++ r)) = .ok (a ++ (v ++ (e ++ r)), ()) :=
            space1_ok.mpr ⟨b, by simp, hb, hex_stop ha⟩
          rw [hs] at this
          exact absurd this (by simp)
    | ok y =>
      obtain ⟨rest, u⟩ := y
      obtain ⟨b, rfl, hb, hstop⟩ := space1_ok.mp hs
      have hbl : 0 < b.length := List.length_pos_iff.mpr hb.1
      simp only
      rw [if_neg (by simp; exact hb.1)]
      cases hr : inlineAddressRange rest with
      | error e =>
        obtain ⟨tr, rfl⟩ := inlineAddressRange_err hr
        constructor
        · rintro ⟨m, h1, h2⟩
          simp only [Except.ok.injEq, Prod.mk.injEq] at h1
          obtain ⟨rfl, rfl⟩ := h1
          rw [myEol_ok] at h2
          obtain ⟨e, h3, he⟩ := h2
          exact (blank_not_eol hb he h3).elim
        · rintro ⟨xs, t, e, rfl, h3, hm, he⟩
          exfalso
          cases xs with
          | nil =>
            have : t = [] := hm
            subst this
            exact blank_not_eol hb he h3
          | cons x xs =>
            obtain ⟨b', _, rfl, hb', a, _, rfl, ha, b2, _, rfl, hb2, s, v, rfl, hsz, hm⟩ := hm
            have h4 : space1 (b ++ rest) = .ok (a ++ (b2 ++ (s ++ (v ++ (e ++ r)))), ()) :=
              space1_ok.mpr ⟨b', by rw [h3]; simp, hb', hex_stop ha⟩
            rw [hs] at h4
            simp only [Except.ok.injEq, Prod.mk.injEq, and_true] at h4
            have h5 : inlineAddressRange rest = .ok (v ++ (e ++ r), x) :=
              inlineAddressRange_ok.mpr ⟨a, b2, s, h4, ha, hb2, hsz, Or.inr (more_head hm he)⟩
            rw [h5] at hr
            exact absurd hr (by simp)
      | ok z =>
        obtain ⟨rest', x⟩ := z
        simp only
        have hlen : rest'.length < n := by
          obtain ⟨t, b2, s, h1, _⟩ := inlineAddressRange_ok.mp hr
          have := congrArg List.length h1
          simp at this hf; omega
        rw [ih (acc ++ [x]) rest' hlen]
        constructor
        · rintro ⟨xs, t, e, rfl, rfl, hm, he⟩
          obtain ⟨a, b2, s, h1, ha, hb2, hsz, _⟩ := inlineAddressRange_ok.mp hr
          refine ⟨x :: xs, b ++ (a ++ (b2 ++ (s ++ t))), e, by simp, by rw [h1]; simp, ?_, he⟩
          exact ⟨b, _, rfl, hb, a, _, rfl, ha, b2, _, rfl, hb2, s, t, rfl, hsz, hm⟩
        · rintro ⟨xs, t, e, rfl, h3, hm, he⟩
          cases xs with
          | nil =>
            have : t = [] := hm
            subst this
            exact (blank_not_eol hb he h3).elim
          | cons x' xs =>
            obtain ⟨b', _, rfl, hb', a, _, rfl, ha, b2, _, rfl, hb2, s, v, rfl, hsz, hm⟩ := hm
            have h4 : space1 (b ++ rest) = .ok (a ++ (b2 ++ (s ++ (v ++ (e ++ r)))), ()) :=
              space1_ok.mpr ⟨b', by rw [h3]; simp, hb', hex_stop ha⟩
            rw [hs] at h4
            simp only [Except.ok.injEq, Prod.mk.injEq, and_true] at h4
            have h5 : inlineAddressRange rest = .ok (v ++ (e ++ r), x') :=
              inlineAddressRange_ok.mpr ⟨a, b2, s, h4, ha, hb2, hsz, Or.inr (more_head hm he)⟩
            rw [hr] at h5
            simp only [Except.ok.injEq, Prod.mk.injEq] at h5
            obtain ⟨rfl, rfl⟩ := h5
            exact ⟨xs, v, e, by simp, rfl, hm, he⟩

theorem rangesEol_ok {i r : Bytes} {xs : List (Nat × Nat)} :
    terminated (separatedList1 space1 inlineAddressRange) myEol i = .ok (r, xs) ↔
      ∃ t e, i = t ++ (e ++ r) ∧ Ranges xs t ∧ Eol e := by
  rw [terminated_ok]
  unfold separatedList1
  constructor
  · rintro ⟨m, h1, u, h2⟩
    cases hr : inlineAddressRange i with
    | error e => rw [hr] at h1; exact absurd h1 (by simp)
    | ok z =>
      obtain ⟨rest, x⟩ := z
      rw [hr] at h1
      simp only at h1
      obtain ⟨ys, t, e, rfl, rfl, hm, he⟩ :=
        (separatedLoop_ok (rest.length + 1) [x] rest r xs (by omega)).mp ⟨m, h1, h2⟩
      obtain ⟨a, b, s, rfl, ha, hb, hs, _⟩ := inlineAddressRange_ok.mp hr
      exact ⟨a ++ (b ++ (s ++ t)), e, by simp, (ranges_more x ys _).mpr
        ⟨a, _, rfl, ha, b, _, rfl, hb, s, t, rfl, hs, hm⟩, he⟩
  · rintro ⟨t, e, rfl, hx, he⟩
    cases xs with
    | nil => exact hx.elim
    | cons x xs =>
      obtain ⟨a, _, rfl, ha, b, _, rfl, hb, s, v, rfl, hs, hm⟩ := (ranges_more x xs t).mp hx
      have hr : inlineAddressRange (a ++ (b ++ (s ++ v)) ++ (e ++ r)) = .ok (v ++ (e ++ r), x) :=
        inlineAddressRange_ok.mpr ⟨a, b, s, by simp, ha, hb, hs, Or.inr (more_head hm he)⟩
      rw [hr]
      simp only
      obtain ⟨m, h1, h2⟩ := (separatedLoop_ok ((v ++ (e ++ r)).length + 1) [x] (v ++ (e ++ r)) r
        (x :: xs) (by omega)).mpr ⟨xs, v, e, rfl, rfl, hm, he⟩
      exact ⟨m, h1, (), h2⟩

theorem ranges_stop {xs : List (Nat × Nat)} {t r : Bytes} (h : Ranges xs t) : Stop (t ++ r) := by
  cases xs with
  | nil => exact h.elim
  | cons x xs =>
    obtain ⟨a, u, rfl, ha, _⟩ := (ranges_more x xs t).mp h
    rw [List.append_assoc]
    exact hex_stop ha

theorem inlineLine_ok {i r : Bytes} {out : List Inlinee} : inlineLine i = .ok (r, out) ↔
    ∃ b t depth callLine callFile originId ranges, i = ascii "INLINE" ++ (b ++ (t ++ r)) ∧ Blanks b ∧
      (Dec depth ∙ Blanks ∙ Dec callLine ∙ Blanks ∙ Dec callFile ∙ Blanks ∙ Dec originId ∙ Blanks ∙
        Ranges ranges ∙ Eol) t ∧
      out = ranges.map fun x => ⟨depth, x.1, x.2, callFile, callLine, originId⟩ := by
  unfold inlineLine
  rw [nom_bind_ok]
  constructor
  · rintro ⟨m, u, h1, h2⟩
    rw [keyword_ok] at h1
    obtain ⟨b, rfl, hb, _⟩ := h1
    rw [nom_bind_ok] at h2
    obtain ⟨m2, f, h2, h3⟩ := h2
    rw [nom_bind_ok] at h3
    obtain ⟨m3, xs, h3, h4⟩ := h3
    rw [nom_pure_ok] at h4
    obtain ⟨rfl, rfl⟩ := h4
    rw [cut_ok, rangesEol_ok] at h3
    obtain ⟨tr, e, rfl, htr, he⟩ := h3
    rw [cut_ok, nom_bind_ok] at h2
    obtain ⟨k1, d1, g1, h2⟩ := h2
    rw [nom_bind_ok] at h2
    obtain ⟨k2, d2, g2, h2⟩ := h2
    rw [nom_bind_ok] at h2
    obtain ⟨k3, d3, g3, h2⟩ := h2
    rw [nom_bind_ok] at h2
    obtain ⟨k4, d4, g4, h2⟩ := h2
    rw [nom_pure_ok] at h2
    obtain ⟨rfl, rfl⟩ := h2
    rw [decField_ok] at g1 g2 g3 g4
    obtain ⟨t4, b4, rfl, ht4, hb4, _⟩ := g4
    obtain ⟨t3, b3, rfl, ht3, hb3, _⟩ := g3
    obtain ⟨t2, b2, rfl, ht2, hb2, _⟩ := g2
    obtain ⟨t1, b1, rfl, ht1, hb1, _⟩ := g1
    exact ⟨b, t1 ++ (b1 ++ (t2 ++ (b2 ++ (t3 ++ (b3 ++ (t4 ++ (b4 ++ (tr ++ e)))))))), d1, d2, d3, d4, xs,
      by simp, hb, ⟨t1, _, rfl, ht1, b1, _, rfl, hb1, t2, _, rfl, ht2, b2, _, rfl, hb2, t3, _, rfl, ht3, b3, _, rfl,
      hb3, t4, _, rfl, ht4, b4, _, rfl, hb4, tr, e, rfl, htr, he⟩, rfl⟩
  · rintro ⟨b, t, d1, d2, d3, d4, xs, rfl, hb, ⟨t1, _, rfl, ht1, b1, _, rfl, hb1, t2, _, rfl, ht2, b2, _, rfl, hb2,
      t3, _, rfl, ht3, b3, _, rfl, hb3, t4, _, rfl, ht4, b4, _, rfl, hb4, tr, e, rfl, htr, he⟩, rfl⟩
    refine ⟨t1 ++ (b1 ++ (t2 ++ (b2 ++ (t3 ++ (b3 ++ (t4 ++ (b4 ++ (tr ++ (e ++ r))))))))), (),
      keyword_ok.mpr ⟨b, by simp, hb, dec_stop ht1⟩, ?_⟩
    rw [nom_bind_ok]
    refine ⟨tr ++ (e ++ r), fun x => ⟨d1, x.1, x.2, d3, d2, d4⟩, ?_, ?_⟩
    · rw [cut_ok, nom_bind_ok]
      refine ⟨t2 ++ (b2 ++ (t3 ++ (b3 ++ (t4 ++ (b4 ++ (tr ++ (e ++ r))))))), d1,
        decField_ok.mpr ⟨t1, b1, by simp, ht1, hb1, dec_stop ht2⟩, ?_⟩
      rw [nom_bind_ok]
      refine ⟨t3 ++ (b3 ++ (t4 ++ (b4 ++ (tr ++ (e ++ r))))), d2,
        decField_ok.mpr ⟨t2, b2, by simp, ht2, hb2, dec_stop ht3⟩, ?_⟩
      rw [nom_bind_ok]
      refine ⟨t4 ++ (b4 ++ (tr ++ (e ++ r))), d3,
        decField_ok.mpr ⟨t3, b3, by simp, ht3, hb3, dec_stop ht4⟩, ?_⟩
      rw [nom_bind_ok]
      refine ⟨tr ++ (e ++ r), d4,
        decField_ok.mpr ⟨t4, b4, by simp, ht4, hb4, ranges_stop htr⟩, nom_pure_ok.mpr ⟨rfl, rfl⟩⟩
    · rw [nom_bind_ok]
      exact ⟨r, xs, cut_ok.mpr (rangesEol_ok.mpr ⟨tr, e, rfl, htr, he⟩), nom_pure_ok.mpr ⟨rfl, rfl⟩⟩

/-! ### Records without content of interest -/

theorem ignored_ok {k i r : Bytes} {u : Unit} :
    (keyword k >>= fun _ => cut (terminated notMyEol myEol) >>= fun _ => pure PUnit.unit : Nom Unit) i = .ok (r, u) ↔
    ∃ b t, i = k ++ (b ++ (t ++ r)) ∧ Blanks b ∧ (Rest ∙ Eol) t ∧ Stop (t ++ r) := by
  rw [nom_bind_ok]
  constructor
  · rintro ⟨m, u, h1, h2⟩
    rw [keyword_ok] at h1
    obtain ⟨b, rfl, hb, hs⟩ := h1
    rw [nom_bind_ok] at h2
    obtain ⟨m2, t, h2, h3⟩ := h2
    rw [nom_pure_ok] at h3
    obtain ⟨rfl, _⟩ := h3
    rw [cut_ok, restEol_ok] at h2
    obtain ⟨e, rfl, ht, he⟩ := h2
    exact ⟨b, t ++ e, by simp, hb, ⟨t, e, rfl, ht, he⟩, hs⟩
  · rintro ⟨b, _, rfl, hb, ⟨t, e, rfl, ht, he⟩, hs⟩
    refine ⟨t ++ e ++ r, (), keyword_ok.mpr ⟨b, by simp, hb, hs⟩, ?_⟩
    rw [nom_bind_ok]
    exact ⟨r, t, cut_ok.mpr (restEol_ok.mpr ⟨e, rfl, ht, he⟩), nom_pure_ok.mpr ⟨rfl, rfl⟩⟩

/-- Blanks before the rest of a line can be counted as part of the keyword or of the rest. -/
theorem blanks_rest {b t r : Bytes} (hb : Blanks b) (ht : (Rest ∙ Eol) t) :
    ∃ b' t', b ++ t = b' ++ t' ∧ Blanks b' ∧ (Rest ∙ Eol) t' ∧ Stop (t' ++ r) := by
  obtain ⟨s, e, rfl, hs, he⟩ := ht
  obtain ⟨h1, h2, h3⟩ := (@span_iff isBlank s (s.takeWhile isBlank) (s.dropWhile isBlank)).mp ⟨rfl, rfl⟩
  refine ⟨b ++ s.takeWhile isBlank, s.dropWhile isBlank ++ e, ?_, ?_, ⟨_, e, rfl, ?_, he⟩, ?_⟩
  · rw [List.append_assoc, ← List.append_assoc (s.takeWhile isBlank), ← h1]
  · refine ⟨by simp [hb.1], ?_⟩
    intro c hc
    rcases List.mem_append.mp hc with hc | hc
    · exact hb.2 c hc
    · exact (isBlank_iff c).mp (h2 c hc)
  · intro c hc
    exact hs c (by rw [h1]; exact List.mem_append_right _ hc)
  · rw [List.append_assoc]
    refine stop_of_tail (t := s.dropWhile isBlank) ⟨rfl, ?_, fun c hc => (isBlank_false_iff c).mp (h3 c hc)⟩ he
    intro c hc
    exact hs c (by rw [h1]; exact List.mem_append_right _ hc)

theorem ignored_iff {k i r : Bytes} {u : Unit} :
    (keyword k >>= fun _ => cut (terminated notMyEol myEol) >>= fun _ => pure PUnit.unit : Nom Unit) i = .ok (r, u) ↔
    ∃ b t, i = k ++ (b ++ (t ++ r)) ∧ Blanks b ∧ (Rest ∙ Eol) t := by
  rw [ignored_ok]
  constructor
  · rintro ⟨b, t, h1, h2, h3, _⟩; exact ⟨b, t, h1, h2, h3⟩
  · rintro ⟨b, t, rfl, h2, h3⟩
    obtain ⟨b', t', g1, g2, g3, g4⟩ := blanks_rest (r := r) h2 h3
    refine ⟨b', t', ?_, g2, g3, g4⟩
    rw [← List.append_assoc b, g1, List.append_assoc]

theorem stackWinLine_ok {i r : Bytes} {u : Unit} : stackWinLine i = .ok (r, u) ↔
    ∃ b t, i = ascii "STACK WIN" ++ (b ++ (t ++ r)) ∧ Blanks b ∧ (Rest ∙ Eol) t := ignored_iff

theorem stackCfi_ok {i r : Bytes} {u : Unit} : stackCfi i = .ok (r, u) ↔
    ∃ b t, i = ascii "STACK CFI" ++ (b ++ (t ++ r)) ∧ Blanks b ∧ (Rest ∙ Eol) t := ignored_iff

theorem stackCfiInit_ok {i r : Bytes} {u : Unit} : stackCfiInit i = .ok (r, u) ↔
    ∃ b t, i = ascii "STACK CFI INIT" ++ (b ++ (t ++ r)) ∧ Blanks b ∧ (Rest ∙ Eol) t := ignored_iff

theorem infoUrl_ok {i r : Bytes} {u : Unit} : infoUrl i = .ok (r, u) ↔
    ∃ b t, i = ascii "INFO URL" ++ (b ++ (t ++ r)) ∧ Blanks b ∧ (Rest ∙ Eol) t := ignored_iff

theorem infoLine_ok {i r : Bytes} : (∃ s, infoLine i = .ok (r, s)) ↔
    ∃ b t, i = ascii "INFO" ++ (b ++ (t ++ r)) ∧ Blanks b ∧ (Rest ∙ Eol) t := by
  unfold infoLine
  constructor
  · rintro ⟨s, h⟩
    rw [nom_bind_ok] at h
    obtain ⟨m, u, h1, h2⟩ := h
    rw [keyword_ok] at h1
    obtain ⟨b, rfl, hb, _⟩ := h1
    rw [cut_ok, restEol_ok] at h2
    obtain ⟨e, rfl, ht, he⟩ := h2
    exact ⟨b, s ++ e, by simp, hb, s, e, rfl, ht, he⟩
  · rintro ⟨b, t, rfl, h2, h3⟩
    obtain ⟨b', t', g1, g2, ⟨s, e, rfl, g3, g5⟩, g4⟩ := blanks_rest (r := r) h2 h3
    refine ⟨s, nom_bind_ok.mpr ⟨s ++ e ++ r, (), keyword_ok.mpr ⟨b', ?_, g2, g4⟩, ?_⟩⟩
    · rw [← List.append_assoc b, g1]; simp
    · exact cut_ok.mpr (restEol_ok.mpr ⟨e, rfl, g3, g5⟩)

/-! ### The module record -/

theorem wordField_ok {i r w : Bytes} (hi : Stop i) :
    terminated nonSpace space1 i = .ok (r, w) ↔ ∃ s, i = w ++ (s ++ r) ∧ Word w ∧ Sp s ∧ Stop r := by
  rw [terminated_ok]
  constructor
  · rintro ⟨m, h1, u, h2⟩
    unfold nonSpace at h1
    rw [takeWhile_ok] at h1
    rw [space1_ok] at h2
    obtain ⟨rfl, h3, h4⟩ := h1
    obtain ⟨b, rfl, hb, hs⟩ := h2
    cases b with
    | nil => exact absurd rfl hb.1
    | cons c b =>
      have hc : c = 32 := by simpa using h4 c rfl
      subst hc
      refine ⟨32 :: b, rfl, ⟨fun c hc => by simpa using h3 c hc, ?_⟩, ⟨b, rfl, fun c hc => hb.2 c (by simp [hc])⟩, hs⟩
      cases w with
      | nil => exact absurd (Or.inl rfl) (hi 32 rfl)
      | cons a w => exact ⟨a, rfl, fun h => hi a rfl (Or.inr h)⟩
  · rintro ⟨s, rfl, ⟨hw1, hw2⟩, ⟨b, rfl, hb⟩, hs⟩
    refine ⟨32 :: b ++ r, ?_, (), space1_ok.mpr ⟨32 :: b, rfl, ⟨by simp, ?_⟩, hs⟩⟩
    · unfold nonSpace
      rw [takeWhile_ok]
      exact ⟨rfl, fun c hc => by simpa using hw1 c hc, fun c hc => by simp at hc; subst hc; rfl⟩
    · intro c hc
      rcases List.mem_cons.mp hc with rfl | hc
      · exact Or.inl rfl
      · exact hb c hc

theorem word_stop {w r : Bytes} (h : Word w) : Stop (w ++ r) := by
  obtain ⟨h1, c, h2, h3⟩ := h
  cases w with
  | nil => simp at h2
  | cons a w =>
    intro d hd
    simp at hd h2; subst hd; subst h2
    rintro (h | h)
    · exact h1 a (by simp) h
    · exact h3 h

theorem moduleLine_ok {i r name : Bytes} : moduleLine i = .ok (r, name) ↔
    ∃ b t, i = ascii "MODULE" ++ (b ++ (t ++ r)) ∧ Blanks b ∧
      (Word ∙ Sp ∙ Word ∙ Sp ∙ Word ∙ Sp ∙ Tail name ∙ Eol) t := by
  unfold moduleLine
  rw [nom_bind_ok]
  constructor
  · rintro ⟨m, u, h1, h2⟩
    rw [keyword_ok] at h1
    obtain ⟨b, rfl, hb, hs⟩ := h1
    rw [cut_ok, nom_bind_ok] at h2
    obtain ⟨k1, w1, g1, h2⟩ := h2
    obtain ⟨s1, rfl, hw1, hs1, hst1⟩ := (wordField_ok hs).mp g1
    rw [nom_bind_ok] at h2
    obtain ⟨k2, w2, g2, h2⟩ := h2
    obtain ⟨s2, rfl, hw2, hs2, hst2⟩ := (wordField_ok hst1).mp g2
    rw [nom_bind_ok] at h2
    obtain ⟨k3, w3, g3, h2⟩ := h2
    obtain ⟨s3, rfl, hw3, hs3, hst3⟩ := (wordField_ok hst2).mp g3
    rw [restEol_ok] at h2
    obtain ⟨e, rfl, ht, he⟩ := h2
    exact ⟨b, w1 ++ (s1 ++ (w2 ++ (s2 ++ (w3 ++ (s3 ++ (name ++ e)))))), by simp, hb, w1, _, rfl, hw1, s1, _, rfl, hs1,
      w2, _, rfl, hw2, s2, _, rfl, hs2, w3, _, rfl, hw3, s3, _, rfl, hs3, name, e, rfl,
      tail_of_stop (e := e) (r := r) ht (by simpa using hst3), he⟩
  · rintro ⟨b, t, rfl, hb, w1, _, rfl, hw1, s1, _, rfl, hs1, w2, _, rfl, hw2, s2, _, rfl, hs2, w3, _, rfl, hw3, s3, _,
      rfl, hs3, n, e, rfl, hn, he⟩
    obtain ⟨hn0, hn1, hn2⟩ := id hn
    refine ⟨w1 ++ (s1 ++ (w2 ++ (s2 ++ (w3 ++ (s3 ++ (n ++ (e ++ r))))))), (),
      keyword_ok.mpr ⟨b, by simp, hb, word_stop hw1⟩, ?_⟩
    rw [cut_ok, nom_bind_ok]
    refine ⟨w2 ++ (s2 ++ (w3 ++ (s3 ++ (n ++ (e ++ r))))), w1,
      (wordField_ok (word_stop hw1)).mpr ⟨s1, rfl, hw1, hs1, word_stop hw2⟩, ?_⟩
    rw [nom_bind_ok]
    refine ⟨w3 ++ (s3 ++ (n ++ (e ++ r))), w2,
      (wordField_ok (word_stop hw2)).mpr ⟨s2, rfl, hw2, hs2, word_stop hw3⟩, ?_⟩
    rw [nom_bind_ok]
    refine ⟨n ++ (e ++ r), w3,
      (wordField_ok (word_stop hw3)).mpr ⟨s3, rfl, hw3, hs3, hn0 ▸ stop_of_tail hn he⟩, ?_⟩
    exact restEol_ok.mpr ⟨e, by rw [← hn0]; simp, hn0 ▸ hn1, he⟩

end Blazesym.Breakpad
