import Verif.Spec.Settings
import Verif.Props.Cmd
import Verif.Props.Options

/-! C72: query settings, from `with_setting` to the server. -/

namespace CH.Props
open CH CH.Spec

theorem insert_mem (s : Settings) (k : String) (v : SettingValue) (hn : (s.map Prod.fst).Nodup) (name : String) (w : SettingValue) :
    (name, w) ∈ s.insert k v ↔ (name = k ∧ w = v) ∨ (name ≠ k ∧ (name, w) ∈ s) := by
  induction s with
  | nil => simp [Settings.insert]
  | cons a rest ih =>
    obtain ⟨k', v'⟩ := a
    simp only [List.map_cons, List.nodup_cons] at hn
    rw [Settings.insert]
    by_cases hk : k' = k
    · subst hk
      rw [if_pos rfl]
      simp only [List.mem_cons, Prod.mk.injEq]
      constructor
      · rintro (h | h)
        · exact .inl h
        · exact .inr ⟨fun e => hn.1 (by rw [← e]; exact List.mem_map.mpr ⟨_, h, rfl⟩), .inr h⟩
      · rintro (h | ⟨h1, h2 | h2⟩)
        · exact .inl h
        · exact absurd h2.1 h1
        · exact .inr h2
    · rw [if_neg hk]
      simp only [List.mem_cons, Prod.mk.injEq, ih hn.2]
      constructor
      · rintro (h | h | h)
        · exact .inr ⟨by rw [h.1]; exact hk, .inl h⟩
        · exact .inl h
        · exact .inr ⟨h.1, .inr h.2⟩
      · rintro (h | ⟨h1, h2 | h2⟩)
        · exact .inr (.inl h)
        · exact .inl h2
        · exact .inr (.inr ⟨h1, h2⟩)

theorem insert_names (s : Settings) (k : String) (v : SettingValue) (x : String) :
    x ∈ (s.insert k v).map Prod.fst ↔ x = k ∨ x ∈ s.map Prod.fst := by
  induction s with
  | nil => simp [Settings.insert]
  | cons a rest ih =>
    obtain ⟨k', v'⟩ := a
    rw [Settings.insert]
    split
    · rename_i hk; subst hk; simp
    · simp only [List.map_cons, List.mem_cons, ih]
      constructor
      · rintro (h | h | h) <;> simp [h]
      · rintro (h | h | h) <;> simp [h]

theorem insert_nodup (s : Settings) (k : String) (v : SettingValue) (hn : (s.map Prod.fst).Nodup) :
    ((s.insert k v).map Prod.fst).Nodup := by
  induction s with
  | nil => simp [Settings.insert]
  | cons a rest ih =>
    obtain ⟨k', v'⟩ := a
    simp only [List.map_cons, List.nodup_cons] at hn
    rw [Settings.insert]
    split
    · rename_i hk; subst hk; simp only [List.map_cons, List.nodup_cons]; exact hn
    · rename_i hk
      simp only [List.map_cons, List.nodup_cons]
      refine ⟨fun h => ?_, ih hn.2⟩
      rcases (insert_names _ _ _ _).mp h with h | h
      · exact hk h
      · exact hn.1 h

theorem lastGiven_cons (c : String × SettingValue) (cs : List (String × SettingValue)) (name : String) (v : SettingValue) :
    LastGiven (c :: cs) name v ↔ LastGiven cs name v ∨ (c = (name, v) ∧ NeverGiven cs name) := by
  constructor
  · rintro ⟨before, after, h1, h2⟩
    cases before with
    | nil => simp only [List.nil_append, List.cons.injEq] at h1; exact .inr ⟨h1.1, by rw [h1.2]; exact h2⟩
    | cons b bs => simp only [List.cons_append, List.cons.injEq] at h1; exact .inl ⟨bs, after, h1.2, h2⟩
  · rintro (⟨before, after, h1, h2⟩ | ⟨h1, h2⟩)
    · exact ⟨c :: before, after, by rw [h1]; rfl, h2⟩
    · exact ⟨[], cs, by rw [h1]; rfl, h2⟩

/-- Several calls of `with_setting` (/repo/src/types/options.rs:360-373), each with a name, a value and an importance. -/
def withSettings (o : Options) (calls : List (String × SettingValue)) : Options :=
  calls.foldl (fun o c => o.withSetting c.1 c.2.value c.2.important) o

/-- C72. After any number of calls of `with_setting`, each name has exactly the value and importance last given, names not given
keep theirs, no name occurs twice, and no other option has changed. -/
theorem C72_settings (calls : List (String × SettingValue)) (o : Options) (hn : (o.settings.map Prod.fst).Nodup) :
    ((withSettings o calls).settings.map Prod.fst).Nodup ∧
    (∀ name v, (name, v) ∈ (withSettings o calls).settings ↔
      LastGiven calls name v ∨ (NeverGiven calls name ∧ (name, v) ∈ o.settings)) ∧
    { withSettings o calls with settings := o.settings } = o := by
  induction calls generalizing o with
  | nil =>
    refine ⟨hn, fun name v => ?_, rfl⟩
    constructor
    · exact fun h => .inr ⟨by simp [NeverGiven], h⟩
    · rintro (⟨b, a, h, _⟩ | h)
      · simp at h
      · exact h.2
  | cons c cs ih =>
    obtain ⟨h1, h2, h3⟩ := ih (o.withSetting c.1 c.2.value c.2.important) (insert_nodup _ _ _ hn)
    refine ⟨h1, fun name v => ?_, ?_⟩
    · refine (h2 name v).trans ?_
      rw [lastGiven_cons, show (o.withSetting c.1 c.2.value c.2.important).settings = o.settings.insert c.1 c.2 from rfl,
        insert_mem _ _ _ hn]
      constructor
      · rintro (h | ⟨h, ⟨e1, e2⟩ | ⟨e1, e2⟩⟩)
        · exact .inl (.inl h)
        · exact .inl (.inr ⟨by rw [e1, e2], h⟩)
        · refine .inr ⟨fun x hx => ?_, e2⟩
          rcases List.mem_cons.mp hx with rfl | hx
          · exact fun e => e1 e.symm
          · exact h x hx
      · rintro ((h | ⟨h1, h2⟩) | ⟨h1, h2⟩)
        · exact .inl h
        · exact .inr ⟨h2, .inl (by rw [h1]; exact ⟨rfl, rfl⟩)⟩
        · exact .inr ⟨fun x hx => h1 x (by simp [hx]), .inr ⟨fun e => h1 c (by simp) e.symm, h2⟩⟩
    · have h4 := congrArg (fun x : Options => ({ x with settings := o.settings } : Options)) h3
      exact h4

example : (Options.default.settings.map Prod.fst).Nodup := by simp [Options.default]
example : LastGiven [("a", ⟨.bool true, true⟩), ("b", ⟨.uint64 1, true⟩), ("a", ⟨.uint64 7, false⟩)] "a" ⟨.uint64 7, false⟩ :=
  ⟨[("a", ⟨.bool true, true⟩), ("b", ⟨.uint64 1, true⟩)], [], rfl, by simp⟩

/-- C72. An integer that is not negative arrives as its decimal notation. (`_partial`: not so negative ones,
`C72_negative_violated`.) -/
theorem C72_integer_partial (v : Int) (h0 : 0 ≤ v) (h1 : v < 2 ^ 63) : (SettingType.ofInt v).text.toList = intText v := by
  obtain ⟨n, rfl⟩ := Int.eq_ofNat_of_zero_le h0
  have : (((n : Int) % 2 ^ 64).toNat) = n := by omega
  rw [SettingType.ofInt, this, text_eq]
  rfl

example : (0 : Int) ≤ 65536 ∧ (65536 : Int) < 2 ^ 63 := by decide

/-- C72 fails for negative integers (`From<i32>`, `From<i64>`): `-v` is sent as `2^64 - v`. -/
theorem C72_negative_violated (v : Int) (h0 : v < 0) (h1 : -2 ^ 63 ≤ v) :
    (SettingType.ofInt v).text.toList = intText (2 ^ 64 + v) ∧ (SettingType.ofInt v).text.toList ≠ intText v := by
  have e : (SettingType.ofInt v).text.toList = intText (2 ^ 64 + v) := by
    obtain ⟨n, hn⟩ := Int.eq_ofNat_of_zero_le (show 0 ≤ 2 ^ 64 + v by omega)
    have : (v % 2 ^ 64).toNat = n := by omega
    rw [SettingType.ofInt, this, text_eq, hn]
    rfl
  refine ⟨e, fun h => ?_⟩
  have h2 := e.symm.trans h
  rw [← intChars_eq_intText, ← intChars_eq_intText, intChars, intChars, if_pos h0, if_neg (by omega)] at h2
  have := natChars_digits (2 ^ 64 + v).natAbs '-' (by rw [h2]; simp)
  simp [isDigitC] at this

example : (-1 : Int) < 0 ∧ -2 ^ 63 ≤ (-1 : Int) := by decide

theorem loop_prefix {step : List β → Reader (List β ⊕ List β)}
    (hr : ∀ acc bs l r, step acc bs = .ok (.inr l) r → l = acc) (hl : ∀ acc bs l r, step acc bs = .ok (.inl l) r → acc <+: l) :
    ∀ (n : Nat) (bs : Bytes), bs.length ≤ n → ∀ (acc l : List β) (r : Bytes), Reader.loop step acc bs = .ok l r → acc <+: l := by
  intro n
  induction n with
  | zero =>
    intro bs hb acc l r h
    rw [loop_run] at h
    split at h
    · rename_i hs; cases h; rw [hr _ _ _ _ hs]; exact List.prefix_refl _
    · split at h
      · omega
      · simp at h
    all_goals simp at h
  | succ n ih =>
    intro bs hb acc l r h
    rw [loop_run] at h
    split at h
    · rename_i hs; cases h; rw [hr _ _ _ _ hs]; exact List.prefix_refl _
    · rename_i hs
      split at h
      · exact (hl _ _ _ _ hs).trans (ih _ (by omega) _ _ _ h)
      · simp at h
    all_goals simp at h

/-- C72 fails for settings of a URL with servers before revision 54429: a URL has only text values, and where such a server expects
a number it takes the length of the text for the value. -/
theorem C72_url_old_server_violated (kind : String → SettingKind) (rev : Nat) (hr : rev < 54429) (name value : String)
    (hk : kind name = .number) (rest r : Bytes) (l : List RawSetting) (h0 : name ≠ "")
    (hn : (strBytes name).length < 2 ^ 63) (hv : (strBytes value).length < 2 ^ 63) (ss : Settings)
    (h : readSettings kind rev (serializeSettings ((name, ⟨.string value, true⟩) :: ss) false ++ rest) = .ok l r) :
    l.head? = some (.num name (strBytes value).length) := by
  have h1 : serializeSettings ((name, ⟨.string value, true⟩) :: ss) false ++ rest =
      putString name ++ (putUvarint (strBytes value).length ++ (strBytes value ++ (serializeSettings ss false ++ rest))) := by
    simp [serializeSettings, putSettingOld, putString, putBytes, List.append_assoc]
  rw [h1, readSettings, loop_inl (s' := [.num name (strBytes value).length])
    (r := strBytes value ++ (serializeSettings ss false ++ rest))] at h
  · have := loop_prefix ?_ ?_ _ _ (Nat.le_refl _) _ _ _ h
    · obtain ⟨t, ht⟩ := this
      rw [← ht]; rfl
    · intro acc bs l r h
      obtain ⟨nm, r1, _, h2⟩ := bind_eq_ok h
      split at h2
      · cases h2; rfl
      · rw [if_neg (by omega)] at h2
        cases hk : kind nm <;> rw [hk] at h2
        · obtain ⟨_, _, _, h3⟩ := bind_eq_ok h2; cases h3
        · obtain ⟨_, _, _, h3⟩ := bind_eq_ok h2; cases h3
    · intro acc bs l r h
      obtain ⟨nm, r1, _, h2⟩ := bind_eq_ok h
      split at h2
      · cases h2
      · rw [if_neg (by omega)] at h2
        cases hk : kind nm <;> rw [hk] at h2
        · obtain ⟨_, _, _, h3⟩ := bind_eq_ok h2; cases h3; exact List.prefix_append _ _
        · obtain ⟨_, _, _, h3⟩ := bind_eq_ok h2; cases h3; exact List.prefix_append _ _
  · rw [bind_ok (readString_put _ _ hn), if_neg h0, if_neg (by omega), hk]
    exact (bind_ok (readUvarint_put (by omega) _)).trans rfl
  · have := (putUvarint_length (Nat.lt_trans hn (by decide))).1
    simp [putString, putBytes]
    omega

/-- Such a setting comes from a URL. -/
example (lib : UrlLib) : (setParam lib Options.default "max_threads" "4").map (·.settings) =
    .ok [("max_threads", ⟨.string "4", true⟩)] := by
  simp [setParam, Except.map, Options.default, Settings.insert]

example : ∃ l r, readSettings (fun _ => .number) 54428 (serializeSettings [("max_threads", ⟨.string "\x00", true⟩)] false ++ []) =
    .ok l r := by
  have e : serializeSettings [("max_threads", ⟨.string "\x00", true⟩)] false ++ [] =
      putString "max_threads" ++ (putUvarint 1 ++ (putString "" ++ putString "")) := by
    simp only [serializeSettings, Bool.false_eq_true, if_false, List.flatMap_cons, List.flatMap_nil, putSettingOld, List.append_nil,
      List.append_assoc]
    have : putString "\x00" = putUvarint 1 ++ putString "" := by
      rw [putString, putString, putBytes, putBytes, show (strBytes "\x00").length = 1 by decide,
        show strBytes "\x00" = [0] by decide, show strBytes "" = [] by decide, show ([] : Bytes).length = 0 from rfl,
        show putUvarint 1 = [1] by simp [putUvarint], show putUvarint 0 = [0] by simp [putUvarint]]
      rfl
    rw [this, List.append_assoc]
  rw [e, readSettings, loop_inl (s' := [.num "max_threads" 1]) (r := putString "" ++ putString "")]
  · refine ⟨[.num "max_threads" 1], putString "", loop_inr ?_⟩
    rw [bind_ok (readString_put _ _ (by decide)), if_pos rfl]
    rfl
  · rw [bind_ok (readString_put _ _ (by decide)), if_neg (by decide), if_neg (by decide)]
    exact (bind_ok (readUvarint_put (by decide) _)).trans rfl
  · have := (putUvarint_length (show 1 < 2 ^ 64 by decide)).1
    simp only [List.length_append]
    omega

end CH.Props
