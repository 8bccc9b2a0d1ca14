import Verif.Proofs.JsonValue
import Verif.Proofs.AMap
import Verif.Props.RoundTrip

/-! Codecs: what is written is read back, for the values of C77. -/

namespace Verif
variable {F α β : Type}

/-! ### Texts -/

theorem isText_ascii {s : GoStr} (h : ∀ b ∈ s, b < 0x80) : IsText s := by
  refine ⟨s.map (·.toNat), ?_, ?_⟩
  · intro r hr
    obtain ⟨b, hb, rfl⟩ := List.mem_map.1 hr
    have : b.toNat < 128 := h b hb
    left; omega
  · induction s with
    | nil => rfl
    | cons b s ih =>
      simp only [List.map_cons, List.flatMap_cons]
      rw [utf8_ascii_byte (h b (by simp)), ← ih (fun b hb => h b (by simp [hb]))]
      rfl

theorem isText_fmtInt (n : Int) : IsText (fmtInt n) := by
  apply isText_ascii
  have hd : ∀ b ∈ natDec n.natAbs, b < 0x80 := by
    intro b hb
    have := (natDec_digits _ b hb).2
    exact UInt8.lt_iff_toNat_lt.2 (by change b.toNat < 128; omega)
  intro b hb
  unfold fmtInt at hb
  split at hb
  · rcases List.mem_cons.1 hb with rfl | hb
    · decide
    · exact hd b hb
  · exact hd b hb

theorem fmtInt_inj {m n : Int} (h : fmtInt m = fmtInt n) (m1 : -2 ^ 63 ≤ m) (m2 : m < 2 ^ 63) (n1 : -2 ^ 63 ≤ n) (n2 : n < 2 ^ 63) :
    m = n := by
  have := parseInt_fmtInt m1 m2
  rw [h, parseInt_fmtInt n1 n2] at this
  exact (Option.some.inj this).symm

/-! ### Codecs -/

/-- What `enc` writes is JSON, and `dec` reads it as a related value. -/
def JCodec (enc : α → Option Json) (dec : Json → Option α) (P : α → Prop) (R : α → α → Prop) : Prop :=
  ∀ a, P a → ∀ v, enc a = some v → v.Ok ∧ ∃ a', dec v.clean = some a' ∧ R a a'

theorem JCodec.roundtrip {enc : α → Option Json} {dec : Json → Option α} {P : α → Prop} {R : α → α → Prop} (hc : JCodec enc dec P R)
    {a : α} (ha : P a) {s : GoStr} (hs : marshal enc a = some s) : ∃ a', unmarshal dec s = some a' ∧ R a a' := by
  unfold marshal at hs
  cases hv : enc a with
  | none => rw [hv] at hs; cases hs
  | some v =>
    rw [hv] at hs; cases hs
    obtain ⟨ok, a', e, r⟩ := hc a ha v hv
    exact ⟨a', by simp [unmarshal, parse_text v ok, e], r⟩

theorem codec_str : JCodec (fun s => some (.str s)) decStr IsText Eq := by
  intro s hs v hv
  cases hv
  exact ⟨trivial, s, by simp only [Json.clean, clean_text hs, decStr], rfl⟩

theorem codec_float [GoFloat F] (j : JsonFloats F) : JCodec j.enc j.dec (fun _ => True) Eq := by
  intro x _ v hv
  unfold JsonFloats.enc at hv
  split at hv
  · rename_i hf
    cases hv
    exact ⟨⟨j.valid x hf, numChar_of_valid (j.valid x hf)⟩, x, by simp only [Json.clean, JsonFloats.dec, j.back x hf], rfl⟩
  · cases hv

/-! ### Slices -/

theorem codec_elems {enc : α → Option Json} {dec : Json → Option α} {P : α → Prop} (hc : JCodec enc dec P Eq) :
    ∀ (l : List α) (vs : List Json), (∀ a ∈ l, P a) → l.mapM enc = some vs → okElems vs ∧ (cleanElems vs).mapM dec = some l := by
  intro l
  induction l with
  | nil => intro vs _ h; cases h; exact ⟨trivial, rfl⟩
  | cons a l ih =>
    intro vs hp h
    rw [List.mapM_cons] at h
    cases hv : enc a with
    | none => rw [hv] at h; cases h
    | some v =>
      cases hl : l.mapM enc with
      | none => rw [hv, hl] at h; cases h
      | some vs' =>
        rw [hv, hl] at h; cases h
        obtain ⟨ok, a', e, r⟩ := hc a (hp a (by simp)) v hv
        obtain ⟨oks, es⟩ := ih vs' (fun a ha => hp a (by simp [ha])) hl
        subst r
        refine ⟨⟨ok, oks⟩, ?_⟩
        simp only [cleanElems, List.mapM_cons, e, es]
        rfl

theorem codec_floats [GoFloat F] (j : JsonFloats F) : JCodec (encFloats j) (decSlice j.dec) (fun _ => True) Eq := by
  intro l _ v hv
  unfold encFloats at hv
  cases hl : l.mapM j.enc with
  | none => rw [hl] at hv; cases hv
  | some vs =>
    rw [hl] at hv; cases hv
    obtain ⟨h1, h2⟩ := codec_elems (codec_float j) l vs (fun _ _ => trivial) hl
    exact ⟨h1, l, by simp only [Json.clean, decSlice, h2], rfl⟩

theorem codec_strs : JCodec (fun l => some (.arr (l.map .str))) (decSlice decStr) (fun l => ∀ s ∈ l, IsText s) Eq := by
  intro l hp v hv
  cases hv
  have hl : l.mapM (fun s => some (Json.str s)) = some (l.map .str) := by
    clear hp
    induction l with
    | nil => rfl
    | cons a l ih => rw [List.mapM_cons, ih]; rfl
  obtain ⟨h1, h2⟩ := codec_elems codec_str l _ hp hl
  exact ⟨h1, l, by simp only [Json.clean, decSlice, h2], rfl⟩

/-! ### Maps -/

theorem perm_map_exists (f : α → β) : ∀ (m' : List β) (m : List α), m'.Perm (m.map f) → ∃ l : List α, l.Perm m ∧ m' = l.map f := by
  intro m'
  induction m' with
  | nil => intro m h; exact ⟨[], by
      have := h.length_eq
      cases m with
      | nil => exact .refl _
      | cons a m => simp at this, rfl⟩
  | cons x m' ih =>
    intro m h
    obtain ⟨a, ha, rfl⟩ := List.mem_map.1 (h.mem_iff.1 (List.mem_cons_self ..))
    obtain ⟨s, t, rfl⟩ := List.append_of_mem ha
    have h2 : m'.Perm ((s ++ t).map f) := by
      have : ((s ++ a :: t).map f).Perm (f a :: (s ++ t).map f) := by
        simp
      exact (h.trans this).cons_inv
    obtain ⟨l, h3, h4⟩ := ih _ h2
    exact ⟨a :: l, (List.Perm.cons a h3).trans List.perm_middle.symm, by rw [h4]; rfl⟩

/-- The same keys, with related values, in a possibly different order. -/
def MapRel {κ : Type} (R : α → α → Prop) (m m' : List (κ × α)) : Prop :=
  ∃ l, l.Perm m ∧ List.Forall₂ (fun e e' => e.1 = e'.1 ∧ R e.2 e'.2) l m'

theorem MapRel.eq {κ : Type} {m m' : List (κ × α)} (h : MapRel Eq m m') : m'.Perm m := by
  obtain ⟨l, hp, hf⟩ := h
  have : l = m' := by
    clear hp
    induction hf with
    | nil => rfl
    | cons h _ ih => obtain ⟨h1, h2⟩ := h; rw [ih, Prod.ext h1 h2]
  exact this ▸ hp

theorem insertEntry_perm (e : GoStr × α) (l : List (GoStr × α)) : (insertEntry e l).Perm (e :: l) := by
  induction l with
  | nil => exact List.Perm.refl _
  | cons f l ih =>
    unfold insertEntry
    split
    · exact List.Perm.refl _
    · exact (List.Perm.cons f ih).trans (List.Perm.swap e f l)

theorem sortEntries_perm (l : List (GoStr × α)) : (sortEntries l).Perm l := by
  induction l with
  | nil => exact List.Perm.refl _
  | cons e l ih => exact (insertEntry_perm e _).trans (List.Perm.cons e ih)

theorem AMap_set_new {κ : Type} [DecidableEq κ] (m : AMap κ α) (k : κ) (v : α) (h : k ∉ m.map (·.1)) : AMap.set m k v = m ++ [(k, v)] := by
  induction m with
  | nil => rfl
  | cons e m ih =>
    obtain ⟨k', v'⟩ := e
    simp only [List.map_cons, List.mem_cons, not_or] at h
    simp only [AMap.set, List.cons_append]
    rw [if_neg (fun he => h.1 he.symm), ih h.2]

theorem codec_entries {f : α → Option Json} {g : Json → Option α} {P : α → Prop} {R : α → α → Prop} (hc : JCodec f g P R) :
    ∀ (l : List (GoStr × α)) (fs : List (GoStr × Json)) (m0 : AMap GoStr α), (l.map (·.1)).Nodup → (∀ e ∈ l, IsText e.1 ∧ P e.2) →
      (∀ e ∈ l, e.1 ∉ m0.map (·.1)) → encEntries f l = some fs →
      okFields fs ∧ ∃ m', decEntries g (cleanFields fs) m0 = some (m0 ++ m') ∧ List.Forall₂ (fun e e' => e.1 = e'.1 ∧ R e.2 e'.2) l m' := by
  intro l
  induction l with
  | nil => intro fs m0 _ _ _ h; cases h; exact ⟨trivial, [], by simp [cleanFields, decEntries], .nil⟩
  | cons e l ih =>
    intro fs m0 nd hp hm h
    obtain ⟨k, a⟩ := e
    unfold encEntries at h
    split at h
    · rename_i v l' hv hl
      cases h
      obtain ⟨ok, a', e1, r⟩ := hc a (hp (k, a) (by simp)).2 v hv
      rw [List.map_cons, List.nodup_cons] at nd
      have hk := hm (k, a) (by simp)
      obtain ⟨oks, m', e2, hf⟩ := ih l' (m0 ++ [(k, a')]) nd.2 (fun e he => hp e (by simp [he]))
        (by intro e he
            simp only [List.map_append, List.map_cons, List.map_nil, List.mem_append, List.mem_singleton, not_or]
            refine ⟨hm e (by simp [he]), fun hek => nd.1 ?_⟩
            exact List.mem_map.2 ⟨e, he, hek⟩) hl
      refine ⟨⟨ok, oks⟩, (k, a') :: m', ?_, .cons ⟨rfl, r⟩ hf⟩
      simp only [cleanFields, decEntries, clean_text (hp (k, a) (by simp)).1, e1, AMap_set_new m0 k a' hk, e2]
      simp
    · cases h

theorem codec_map {f : α → Option Json} {g : Json → Option α} {P : α → Prop} {R : α → α → Prop} (hc : JCodec f g P R) :
    JCodec (encMap f) (decMap g) (fun m => KeysOnce m ∧ ∀ e ∈ m, IsText e.1 ∧ P e.2) (MapRel R) := by
  rintro m ⟨nd, hp⟩ v hv
  unfold encMap at hv
  cases he : encEntries f (sortEntries m) with
  | none => rw [he] at hv; cases hv
  | some fs =>
    rw [he] at hv; cases hv
    have pm := sortEntries_perm m
    obtain ⟨ok, m', e, hf⟩ := codec_entries hc (sortEntries m) fs [] ((pm.map _).nodup_iff.2 nd) (fun e h => hp e (pm.mem_iff.1 h))
      (by simp) he
    exact ⟨ok, m', by simpa [Json.clean, decMap] using e, _, pm, hf⟩

theorem intKeys_spec : ∀ (l : AMap GoStr α) (ks : List Int) (m0 : AMap Int α), l.map (·.1) = ks.map fmtInt → ks.Nodup →
    (∀ k ∈ ks, -2 ^ 63 ≤ k ∧ k < 2 ^ 63) → (∀ k ∈ ks, k ∉ m0.map (·.1)) →
    intKeys l m0 = some (m0 ++ ks.zip (l.map (·.2))) := by
  intro l
  induction l with
  | nil => intro ks m0 h _ _ _; simp [intKeys]
  | cons e l ih =>
    intro ks m0 h nd hr hm
    obtain ⟨k, a⟩ := e
    cases ks with
    | nil => cases h
    | cons n ks =>
      simp only [List.map_cons, List.cons.injEq] at h
      obtain ⟨rfl, h⟩ := h
      rw [List.nodup_cons] at nd
      have hn := hr n (by simp)
      unfold intKeys
      simp only [parseInt_fmtInt hn.1 hn.2]
      rw [AMap_set_new _ _ _ (hm n (by simp)), ih ks _ h nd.2 (fun k hk => hr k (by simp [hk]))
        (by intro k hk
            simp only [List.map_append, List.map_cons, List.map_nil, List.mem_append, List.mem_singleton, not_or]
            exact ⟨hm k (by simp [hk]), fun he => nd.1 (he ▸ hk)⟩)]
      simp

theorem codec_intMap {f : α → Option Json} {g : Json → Option α} {P : α → Prop} (hc : JCodec f g P Eq) :
    JCodec (encIntMap f) (decIntMap g) (fun m => KeysOnce m ∧ ∀ e ∈ m, (-2 ^ 63 ≤ e.1 ∧ e.1 < 2 ^ 63) ∧ P e.2) (fun m m' => m'.Perm m) := by
  rintro m ⟨nd, hp⟩ v hv
  have nd' : KeysOnce (m.map fun e => (fmtInt e.1, e.2)) := by
    unfold KeysOnce at nd ⊢
    rw [List.map_map]
    have : (m.map ((fun e : GoStr × α => e.1) ∘ fun e : Int × α => (fmtInt e.1, e.2))) = (m.map (·.1)).map fmtInt := by simp
    rw [this]
    refine List.Nodup.map_on ?_ nd
    intro x hx y hy he
    obtain ⟨e1, h1, rfl⟩ := List.mem_map.1 hx
    obtain ⟨e2, h2, rfl⟩ := List.mem_map.1 hy
    exact fmtInt_inj he (hp e1 h1).1.1 (hp e1 h1).1.2 (hp e2 h2).1.1 (hp e2 h2).1.2
  obtain ⟨ok, m', e, r⟩ := codec_map hc (m.map fun e : Int × α => (fmtInt e.1, e.2))
    ⟨nd', by
      intro e he
      obtain ⟨x, hx, rfl⟩ := List.mem_map.1 he
      exact ⟨isText_fmtInt _, (hp x hx).2⟩⟩ v hv
  have pm := r.eq
  obtain ⟨l, hl, hpl⟩ : ∃ l : List (Int × α), l.Perm m ∧ m' = l.map fun e => (fmtInt e.1, e.2) := by
    obtain ⟨l, h1, h2⟩ := perm_map_exists (fun e : Int × α => (fmtInt e.1, e.2)) m' m pm
    exact ⟨l, h1, h2⟩
  refine ⟨ok, l, ?_, hl⟩
  unfold decIntMap
  rw [e]
  simp only
  rw [intKeys_spec m' (l.map (·.1)) [] (by rw [hpl]; simp) ((hl.map (fun e : Int × α => e.1)).nodup_iff.2 nd)
    (by intro k hk
        obtain ⟨x, hx, rfl⟩ := List.mem_map.1 hk
        exact (hp x (hl.mem_iff.1 hx)).1) (by simp)]
  rw [hpl, List.map_map]
  simp only [List.nil_append, Option.some.injEq]
  clear hpl pm r e hl
  induction l with
  | nil => rfl
  | cons x l ih => simp only [List.map_cons, List.zip_cons_cons, ih]; rfl

/-! ### Lookups -/

theorem get_perm {κ : Type} [DecidableEq κ] {m m' : AMap κ α} (nd : KeysOnce m) (p : List.Perm m' m) (k : κ) : AMap.get m' k = AMap.get m k := by
  have nd' : KeysOnce m' := (p.map (fun e : κ × α => e.1)).nodup_iff.2 nd
  cases h : AMap.get m k with
  | some v => exact AMap.get_of_mem nd' (p.mem_iff.2 (AMap.mem_of_get h))
  | none =>
    rw [AMap.get_eq_none_iff] at h ⊢
    intro hk
    exact h ((p.map (fun e : κ × α => e.1)).mem_iff.1 hk)

theorem get_forall₂ {κ : Type} [DecidableEq κ] {R : α → α → Prop} {l m' : AMap κ α}
    (hf : List.Forall₂ (fun e e' => e.1 = e'.1 ∧ R e.2 e'.2) l m') (k : κ) :
    (AMap.get l k = none ∧ AMap.get m' k = none) ∨ ∃ v v', AMap.get l k = some v ∧ AMap.get m' k = some v' ∧ R v v' := by
  induction hf with
  | nil => exact Or.inl ⟨rfl, rfl⟩
  | @cons e e' l m' h _ ih =>
    obtain ⟨k1, a⟩ := e
    obtain ⟨k2, a'⟩ := e'
    obtain ⟨h1, h2⟩ := h
    simp only at h1 h2
    subst h1
    by_cases hk : k1 = k
    · exact Or.inr ⟨a, a', by simp [AMap.get, hk], by simp [AMap.get, hk], h2⟩
    · simpa [AMap.get, hk] using ih

theorem MapRel.get {κ : Type} [DecidableEq κ] {R : α → α → Prop} {m m' : AMap κ α} (r : MapRel R m m') (nd : KeysOnce m) (k : κ) :
    (AMap.get m k = none ∧ AMap.get m' k = none) ∨ ∃ v v', AMap.get m k = some v ∧ AMap.get m' k = some v' ∧ R v v' := by
  obtain ⟨l, p, hf⟩ := r
  have := get_forall₂ hf k
  rwa [get_perm nd p k] at this

/-! ### The structures -/

theorem codec_ptr {f : α → Option Json} {g : Json → Option α} {P : α → Prop} {R : α → α → Prop} (hc : JCodec f g P R)
    (ho : ∀ a v, f a = some v → ∃ l, v = .obj l) :
    JCodec (encPtr f) (decPtr g) (fun o => ∀ a, o = some a → P a)
      (fun o o' => (o = none ∧ o' = none) ∨ ∃ a a', o = some a ∧ o' = some a' ∧ R a a') := by
  intro o hp v hv
  cases o with
  | none => cases hv; exact ⟨trivial, none, rfl, Or.inl ⟨rfl, rfl⟩⟩
  | some a =>
    obtain ⟨ok, a', e, r⟩ := hc a (hp a rfl) v hv
    obtain ⟨l, rfl⟩ := ho a v hv
    exact ⟨ok, some a', by simp only [Json.clean, decPtr] at e ⊢; rw [e]; rfl, Or.inr ⟨a, a', rfl, rfl, r⟩⟩

section
variable [GoFloat F] (j : JsonFloats F)

theorem codec_fmap : JCodec (encMap j.enc) (decMap j.dec) Named (fun m m' => List.Perm m' m) := by
  intro m hm v hv
  obtain ⟨ok, m', e, r⟩ := codec_map (codec_float j) m ⟨hm.1, fun e he => ⟨hm.2 e he, trivial⟩⟩ v hv
  exact ⟨ok, m', e, r.eq⟩

theorem codec_scaler : JCodec (Scaler.enc j) (Scaler.dec j) Scaler.Named
    (fun sc sc' => List.Perm sc'.shift sc.shift ∧ List.Perm sc'.scale sc.scale ∧ sc'.options = ⟨false, false, false⟩) := by
  intro sc hn v hv
  unfold Scaler.enc at hv
  split at hv
  · rename_i a b ha hb
    cases hv
    obtain ⟨ok1, m1, e1, p1⟩ := codec_fmap j _ hn.1 a ha
    obtain ⟨ok2, m2, e2, p2⟩ := codec_fmap j _ hn.2 b hb
    refine ⟨⟨ok1, ok2, trivial⟩, ⟨m1, m2, ⟨false, false, false⟩⟩, ?_, p1, p2, rfl⟩
    have f1 : (Json.obj [(b!"Shift", a), (b!"Scale", b)]).clean.field b!"Shift" = a.clean := rfl
    have f2 : (Json.obj [(b!"Shift", a), (b!"Scale", b)]).clean.field b!"Scale" = b.clean := rfl
    unfold Scaler.dec
    rw [f1, f2, e1, e2]
  · cases hv

theorem codec_imputer : JCodec (FloatImputer.enc j) (FloatImputer.dec j) (fun im => Named im.fallback)
    (fun im im' => List.Perm im'.fallback im.fallback ∧ im'.policy = .mean) := by
  intro im hn v hv
  unfold FloatImputer.enc at hv
  cases ha : encMap j.enc im.fallback with
  | none => rw [ha] at hv; cases hv
  | some a =>
    rw [ha] at hv; cases hv
    obtain ⟨ok1, m1, e1, p1⟩ := codec_fmap j _ hn a ha
    refine ⟨⟨ok1, trivial⟩, ⟨m1, .mean⟩, ?_, p1, rfl⟩
    have f1 : (Json.obj [(b!"Fallback", a)]).clean.field b!"Fallback" = a.clean := rfl
    simp only [FloatImputer.dec, f1, e1, Option.map_some]

end

theorem codec_hash : JCodec (fun e => some (HashEncoder.enc e)) HashEncoder.dec (fun e => ∀ c ∈ e.categoricalColumns, IsText c) Eq := by
  intro e hn v hv
  cases hv
  obtain ⟨ok, l, e1, rfl⟩ := codec_strs e.categoricalColumns hn _ rfl
  refine ⟨⟨ok, trivial⟩, e, ?_, rfl⟩
  have f1 : (HashEncoder.enc e).clean.field b!"CategoricalColumns" = (Json.arr (e.categoricalColumns.map .str)).clean := rfl
  simp only [HashEncoder.dec, f1, e1, Option.map_some]

theorem fmtInt_code (p : CategoryPolicy) : ∃ b, fmtInt p.code = [b] ∧ validNumber [b] = true ∧ numChar b = true ∧
    (decInt (.num [b])).bind CategoryPolicy.ofCode = some p := by
  cases p <;> simp only [CategoryPolicy.code]
  · exact ⟨48, by simp [fmtInt, natDec], by decide, by decide, by decide⟩
  · exact ⟨49, by simp [fmtInt, natDec], by decide, by decide, by decide⟩
  · exact ⟨50, by simp [fmtInt, natDec], by decide, by decide, by decide⟩
  · exact ⟨51, by simp [fmtInt, natDec], by decide, by decide, by decide⟩
  · exact ⟨52, by simp [fmtInt, natDec], by decide, by decide, by decide⟩

theorem codec_options : JCodec (fun o => some (OneHotOptions.enc o)) OneHotOptions.dec (fun _ => True) Eq := by
  intro o _ v hv
  cases hv
  obtain ⟨b1, e1, v1, n1, d1⟩ := fmtInt_code o.missing
  obtain ⟨b2, e2, v2, n2, d2⟩ := fmtInt_code o.unknown
  unfold OneHotOptions.enc
  rw [e1, e2]
  refine ⟨⟨⟨v1, by simpa using n1⟩, ⟨v2, by simpa using n2⟩, trivial, trivial⟩, o, ?_, rfl⟩
  generalize hv : (Json.obj [(b!"MissingPolicy", .num [b1]), (b!"UnknownPolicy", .num [b2]), (b!"KeepUsedColumns", .bool o.keep)]).clean = v
  have f1 : v.field b!"MissingPolicy" = .num [b1] := by rw [← hv]; rfl
  have f2 : v.field b!"UnknownPolicy" = .num [b2] := by rw [← hv]; rfl
  have f3 : v.field b!"KeepUsedColumns" = .bool o.keep := by rw [← hv]; rfl
  unfold OneHotOptions.dec
  rw [f1, f2, f3, d1, d2]
  rfl

theorem codec_pair : JCodec (fun p : GoStr × GoStr => some (.arr [.str p.1, .str p.2])) decPair (fun p => IsText p.1 ∧ IsText p.2) Eq := by
  intro p hp v hv
  cases hv
  obtain ⟨ok, l, e, rfl⟩ := codec_strs [p.1, p.2] (by simp [hp.1, hp.2]) _ rfl
  refine ⟨ok, p, ?_, rfl⟩
  simp only [List.map_cons, List.map_nil] at e
  simp only [decPair, e]

/-- What a restored one-hot encoder has in common with the original: everything. -/
structure OneHotEncoder.Same (e e' : OneHotEncoder) : Prop where
  cols : e'.catCols = e.catCols
  news : e'.newCols = e.newCols
  categories : MapRel (fun m m' : AMap Int GoStr => List.Perm m' m) e.categories e'.categories
  fallback : List.Perm e'.fallback e.fallback
  options : e'.options = e.options

theorem codec_oneHot : JCodec OneHotEncoder.enc OneHotEncoder.dec OneHotEncoder.Named OneHotEncoder.Same := by
  intro e hn v hv
  unfold OneHotEncoder.enc at hv
  split at hv
  · rename_i a b ha hb
    cases hv
    obtain ⟨ok1, l1, e1, rfl⟩ := codec_strs e.catCols hn.cols _ rfl
    obtain ⟨ok2, l2, e2, rfl⟩ := codec_strs e.newCols hn.news _ rfl
    obtain ⟨ok3, m3, e3, r3⟩ := codec_map (codec_intMap codec_str) e.categories
      ⟨hn.categories.1, fun x hx => ⟨hn.categories.2 x hx, (hn.codes x hx).1, (hn.codes x hx).2⟩⟩ a ha
    obtain ⟨ok4, m4, e4, r4⟩ := codec_map codec_pair e.fallback
      ⟨hn.fallback.1, fun x hx => ⟨hn.fallback.2 x hx, hn.names x hx⟩⟩ b hb
    obtain ⟨ok5, o, e5, rfl⟩ := codec_options e.options trivial _ rfl
    refine ⟨⟨ok1, ok2, ok3, ok4, ok5, trivial⟩, ⟨e.catCols, e.newCols, m3, m4, e.options⟩, ?_, ⟨rfl, rfl, r3, r4.eq, rfl⟩⟩
    generalize hv : (Json.obj [(b!"CategoricalColumns", Json.arr (e.catCols.map .str)), (b!"NewColumns", .arr (e.newCols.map .str)),
      (b!"Categories", a), (b!"Fallback", b), (b!"Options", e.options.enc)]).clean = v
    have f1 : v.field b!"CategoricalColumns" = (Json.arr (e.catCols.map .str)).clean := by rw [← hv]; rfl
    have f2 : v.field b!"NewColumns" = (Json.arr (e.newCols.map .str)).clean := by rw [← hv]; rfl
    have f3 : v.field b!"Categories" = a.clean := by rw [← hv]; rfl
    have f4 : v.field b!"Fallback" = b.clean := by rw [← hv]; rfl
    have f5 : v.field b!"Options" = e.options.enc.clean := by rw [← hv]; rfl
    unfold OneHotEncoder.dec
    rw [f1, f2, f3, f4, f5, e1, e2, e3, e4, e5]
  · cases hv

end Verif
