import Verif.Spec.Url
import Verif.Props.Settings
import Verif.Props.Connect
import Verif.Props.Protocol
import Verif.Props.Source

/-! Property C100: what the URL says is what the server is told. -/

namespace CH.Props
open CH CH.Spec

theorem map_settings {α : Type} {x : Except UrlErr α} {f : α → Options} {s : Settings} {o' : Options} (h : x.map f = .ok o')
    (hf : ∀ a, (f a).settings = s) : o'.settings = s := by
  cases x with
  | error e => cases h
  | ok a => cases h; exact hf a

theorem setParam_settings {lib : UrlLib} {o o' : Options} {k v : String} (h : setParam lib o k v = .ok o') :
    o'.settings = o.settings ∨ o'.settings = o.settings.insert k ⟨.string v, true⟩ := by
  by_cases hk : k ∈ recognised
  · left
    simp only [recognised, List.mem_cons, List.not_mem_nil, or_false] at hk
    rcases hk with rfl | rfl | rfl | rfl | rfl | rfl | rfl | rfl | rfl | rfl | rfl | rfl | rfl | rfl
    · rw [setParam_poolMin] at h; exact map_settings h fun _ => rfl
    · rw [setParam_poolMax] at h; exact map_settings h fun _ => rfl
    · rw [setParam_nodelay] at h; exact map_settings h fun _ => rfl
    · rw [setParam_keepalive] at h; exact map_settings h fun _ => rfl
    · rw [setParam_pingBeforeQuery] at h; exact map_settings h fun _ => rfl
    · rw [setParam_sendRetries] at h; exact map_settings h fun _ => rfl
    · rw [setParam_retryTimeout] at h; exact map_settings h fun _ => rfl
    · rw [setParam_pingTimeout] at h; exact map_settings h fun _ => rfl
    · rw [setParam_connectionTimeout] at h; exact map_settings h fun _ => rfl
    · rw [setParam_queryTimeout] at h; exact map_settings h fun _ => rfl
    · rw [setParam_insertTimeout] at h; exact map_settings h fun _ => rfl
    · rw [setParam_executeTimeout] at h; exact map_settings h fun _ => rfl
    · rw [setParam_compression] at h; exact map_settings h fun _ => rfl
    · rw [setParam_altHosts] at h; exact map_settings h fun _ => rfl
  · rw [setParam_other lib o k v hk] at h
    cases h
    exact .inr rfl

theorem setParams_nodup {lib : UrlLib} (ps : List (String × String)) : ∀ {o o' : Options}, setParams lib o ps = .ok o' →
    (o.settings.map Prod.fst).Nodup → (o'.settings.map Prod.fst).Nodup := by
  induction ps with
  | nil => intro o o' h hn; cases h; exact hn
  | cons p ps ih =>
    intro o o' h hn
    rw [setParams] at h
    cases hp : setParam lib o p.1 p.2 with
    | error e => rw [hp] at h; cases h
    | ok o1 =>
      rw [hp] at h
      refine ih h ?_
      rcases setParam_settings hp with e | e
      · rw [e]; exact hn
      · rw [e]; exact insert_nodup _ _ _ hn

theorem fromUrl_nodup {lib : UrlLib} {text : String} {o : Options} (h : fromUrl lib text = .ok o) :
    (o.settings.map Prod.fst).Nodup := by
  rw [fromUrl] at h
  cases hp : lib.parse text with
  | none => simp [hp] at h
  | some u =>
    rw [hp] at h
    simp only at h
    split at h
    · simp at h
    split at h
    · simp at h
    cases hd : databaseOf u with
    | error e => simp [hd] at h
    | ok d =>
      rw [hd] at h
      simp only at h
      refine setParams_nodup _ h ?_
      cases d <;> cases u.password <;> by_cases hu : u.username = "" <;> simp [Options.default, hu]

theorem mem_of_lookup {s : Settings} {k : String} {v : SettingValue} (h : s.lookup k = some v) : (k, v) ∈ s := by
  induction s with
  | nil => cases h
  | cons x xs ih =>
    obtain ⟨a, b⟩ := x
    rw [List.lookup_cons] at h
    cases hk : (k == a) with
    | true => rw [hk] at h; cases h; rw [eq_of_beq hk]; exact List.mem_cons_self
    | false => rw [hk] at h; exact List.mem_cons_of_mem _ (ih h)

theorem lookup_of_mem {s : Settings} {k : String} {v : SettingValue} (hn : (s.map Prod.fst).Nodup) (h : (k, v) ∈ s) :
    s.lookup k = some v := by
  induction s with
  | nil => cases h
  | cons x xs ih =>
    obtain ⟨a, b⟩ := x
    simp only [List.map_cons, List.nodup_cons] at hn
    rw [List.lookup_cons]
    rcases List.mem_cons.mp h with e | h'
    · cases e; simp
    · have : k ≠ a := by
        rintro rfl
        exact hn.1 (List.mem_map.mpr ⟨(k, v), h', rfl⟩)
      rw [show (k == a) = false by simpa using this]
      exact ih hn.2 h'

/-- The settings of the options are those the URL gives. -/
theorem url_settings {lib : UrlLib} {text : String} {u : UrlParts} {o : Options} (hp : lib.parse text = some u)
    (h : fromUrl lib text = .ok o) (name : String) (v : SettingValue) :
    (name, v) ∈ o.settings ↔ name ∉ recognised ∧ ∃ value, lastOf name u.query = some value ∧ v = ⟨.string value, true⟩ := by
  obtain ⟨u', h1, _, _, _, _, _, _, base, _, _, _, _, _, _, _, _, _, _, _, _, _, _, hs, ha⟩ := C36_from_url lib text o h
  rw [hp] at h1
  cases h1
  have hl := ha.settings name
  rw [hs] at hl
  constructor
  · intro hm
    rw [lookup_of_mem (fromUrl_nodup h) hm] at hl
    split at hl
    · cases hl
    · rename_i hr
      refine ⟨hr, ?_⟩
      split at hl
      · cases hl
      · rename_i w hw
        cases hl
        exact ⟨w, hw, rfl⟩
  · rintro ⟨hr, w, hw, rfl⟩
    rw [if_neg hr, hw] at hl
    exact mem_of_lookup hl

theorem url_tells {lib : UrlLib} {text : String} {u : UrlParts} {o : Options} (hp : lib.parse text = some u)
    (h : fromUrl lib text = .ok o) {rev : Nat} (hr : 54429 ≤ rev) : TellsSettings u.query (o.settings.map (seenSetting rev)) := by
  have hn := fromUrl_nodup h
  have key : ∀ s ∈ o.settings, ∃ w, s = (s.1, ⟨.string w, true⟩) ∧ seenSetting rev s = .flagged s.1 true w := by
    rintro ⟨n, v⟩ hs
    obtain ⟨_, w, _, rfl⟩ := (url_settings hp h n v).mp hs
    exact ⟨w, rfl, by simp [seenSetting, hr]⟩
  refine ⟨?_, fun x => ?_⟩
  · generalize o.settings = s at hn key
    induction s with
    | nil => simp
    | cons a s ih =>
      simp only [List.map_cons, List.nodup_cons] at hn ⊢
      refine ⟨fun hm => ?_, ih hn.2 fun b hb => key b (List.mem_cons_of_mem _ hb)⟩
      obtain ⟨b, hb, e⟩ := List.mem_map.mp hm
      obtain ⟨w, _, hw⟩ := key a List.mem_cons_self
      obtain ⟨w', _, hw'⟩ := key b (List.mem_cons_of_mem _ hb)
      rw [hw, hw'] at e
      simp only [RawSetting.flagged.injEq] at e
      exact hn.1 (List.mem_map.mpr ⟨b, hb, e.1⟩)
  · constructor
    · intro hx
      obtain ⟨⟨n, v⟩, hs, e⟩ := List.mem_map.mp hx
      obtain ⟨hnr, w, hw, rfl⟩ := (url_settings hp h n v).mp hs
      exact ⟨n, w, by rw [← e]; simp [seenSetting, hr], hnr, hw⟩
    · rintro ⟨n, w, rfl, hnr, hw⟩
      exact List.mem_map.mpr ⟨(n, ⟨.string w, true⟩), (url_settings hp h n _).mpr ⟨hnr, w, hw, rfl⟩, by simp [seenSetting, hr]⟩

/-- Nothing in the URL exceeds what a length can say, and no parameter is nameless. -/
structure UrlFits (u : UrlParts) (user pass db : String) : Prop where
  user : (strBytes user).length < 2 ^ 63
  pass : (strBytes pass).length < 2 ^ 63
  db : (strBytes db).length < 2 ^ 63
  names : ∀ p ∈ u.query, p.1 ≠ "" ∧ (strBytes p.1).length < 2 ^ 63
  values : ∀ p ∈ u.query, (strBytes p.2).length < 2 ^ 63

theorem lastOf_mem {k w : String} {ps : List (String × String)} (h : lastOf k ps = some w) : (k, w) ∈ ps := by
  rw [lastOf] at h
  obtain ⟨p, hp, e⟩ := List.mem_map.mp (List.mem_of_getLast? h)
  obtain ⟨h1, h2⟩ := List.mem_filter.mp hp
  obtain ⟨a, b⟩ := p
  simp only [decide_eq_true_eq] at h2 e
  subst h2 e
  exact h1

/-- What the options of a URL are, in terms of what it says. -/
theorem url_says {lib : UrlLib} {text : String} {u : UrlParts} {o : Options} {user pass db : String} {c : Nat}
    (hp : lib.parse text = some u) (h : fromUrl lib text = .ok o) (hu : UrlUser u.username user)
    (hw : UrlPassword u.password pass) (hd : UrlDatabase u.segments db) (hc : UrlCompression u.query c) :
    o.addr = ⟨u.host, some (u.port.getD 9000)⟩ ∧ o.username = user ∧ o.password = pass ∧ o.database = db ∧
      (if o.compression then 1 else 0) = c := by
  have hdb : ∀ e s, u.segments = some [e] → Writes s e → e ≠ "" → 37 ∉ strBytes e → o.database = s := by
    intro e s h1 h2 h3 h4
    refine C61_database_partial hp h1 h2 ?_ h4 h
    rintro rfl
    rw [Writes] at h2
    rw [show strBytes "" = [] from rfl] at h2
    refine h3 (strBytes_injective ?_)
    generalize strBytes e = b at h2
    cases h2
    rfl
  obtain ⟨u', h1, _, _, ha, h2, h3, h4, base, _, _, _, _, _, _, _, _, _, _, _, _, hcomp, _, _, happ⟩ := C36_from_url lib text o h
  rw [hp] at h1
  cases h1
  refine ⟨ha, ?_, ?_, ?_, ?_⟩
  · rw [h2]
    generalize u.username = e at hu
    cases hu with
    | absent => rfl
    | given hw hne => rw [if_neg hne, decodeLossy_writes hw]
  · rw [h3]
    generalize u.password = e at hw
    cases hw with
    | absent => rfl
    | given hw => exact decodeLossy_writes hw
  · generalize hseg : u.segments = e at hd
    cases hd with
    | noPath => rw [h4, hseg]
    | noSegment => rw [h4, hseg]
    | empty => rw [h4, hseg]; rfl
    | given hw hne hpl => exact hdb _ _ hseg hw hne hpl
  · have ht := happ.compression
    rw [Takes] at ht
    cases hc with
    | absent hl =>
      rw [hl] at ht
      rw [show o.compression = base.compression from ht, hcomp]
      rfl
    | off hl hw =>
      rw [hl] at ht
      dsimp only at ht
      rw [decodeLossy_writes hw] at ht
      rcases ht with ⟨_, ht⟩ | ⟨h, _⟩
      · rw [ht]; rfl
      · exact absurd h (by decide)
    | on hl hw =>
      rw [hl] at ht
      dsimp only at ht
      rw [decodeLossy_writes hw] at ht
      rcases ht with ⟨h, _⟩ | ⟨_, ht⟩
      · exact absurd h (by decide)
      · rw [ht]; rfl

/-- C100. What the URL says is what happens: the connection goes to the host and port it names (9000 if it names none); the first
message on it gives the server the user, the password and the database it names; and every query after it carries as settings
exactly the parameters that are not the client's own, with the values given last, and asks for compression exactly if the URL does.
(`_partial`: databases whose names need escapes are named wrongly, `C61_database_violated`; servers before revision 54429 do not
understand the settings, `C72_url_old_server_violated`; a nameless parameter spoils the message, `C38_unnamed_setting_violated`.) -/
theorem C100_url_partial (lib : UrlLib) (text : String) (u : UrlParts) (o : Options) (user pass db : String) (c : Nat)
    (hp : lib.parse text = some u) (h : fromUrl lib text = .ok o) (hu : UrlUser u.username user)
    (hw : UrlPassword u.password pass) (hd : UrlDatabase u.segments db) (hc : UrlCompression u.query c)
    (hfit : UrlFits u user pass db)
    (tls : Bool) (t : TlsOptions) (pooled : Bool) (world : OpenEnv) (host : String) (s : Stream) (hd' : Handle)
    (hhost : (strBytes host).length < 2 ^ 63)
    (ho : Client.open tls t o.addr ⟨0, host, o⟩ pooled world = .ok (s, hd')) :
    ∃ l, world.resolve ⟨u.host, some (u.port.getD 9000)⟩ = .ok l ∧ ∃ a ∈ l, s.socket = a.addr ∧
    ∃ i rest, Greets (world.server a.addr) ⟨0, host, o⟩ i rest ∧ hd'.context.revision = i.revision ∧
    ∀ (env : Env) (kind : String → SettingKind) (tz : Tz) (q : Query), 54429 ≤ i.revision → (strBytes q.sql).length < 2 ^ 63 →
      (strBytes q.id).length < 2 ^ 63 → SendOK env tz (c == 1) Block.new →
      ∃ bytes m b, (Cmd.union (.hello ⟨0, host, o⟩) (.sendQuery q hd'.context)).encode env.codec = .ok bytes ∧
        Reads (readMsg env kind 54429 tz (c == 1)) bytes
          [.hello "Rust SQLDriver" (1, 1, 54429) db user pass, .query m, .data "" b] ∧
        m.sql = q.sql ∧ m.compression = c ∧ TellsSettings u.query m.settings ∧ b.columns = [] := by
  obtain ⟨e1, e2, e3, e4, e5⟩ := url_says hp h hu hw hd hc
  obtain ⟨l, hl, a, ha, _, hs, i, rest, hg, hh⟩ := C69_open tls t o.addr _ pooled world s hd' ho
  rw [e1] at hl
  have hctx : hd'.context = ⟨i.revision, host, o⟩ := by rw [hh]
  refine ⟨l, hl, a, ha, hs, i, rest, hg, by rw [hctx], fun env kind tz q hr h1 h2 h3 => ?_⟩
  have hcc : (c == 1) = o.compression := by
    rw [← e5]
    cases o.compression <;> rfl
  rw [hctx]
  rw [hcc] at h3 ⊢
  have hm : min i.revision 54429 = 54429 := by omega
  have hq : QueryOK env kind tz q ⟨i.revision, host, o⟩ := by
    refine ⟨h1, h2, hhost, ?_, h3⟩
    rintro ⟨n, v⟩ hmem
    obtain ⟨_, w, hw, rfl⟩ := (url_settings hp h n v).mp hmem
    have hin := lastOf_mem hw
    exact ⟨(hfit.names _ hin).1, (hfit.names _ hin).2, hfit.values _ hin, (fun k hk => by cases hk), .inl (by dsimp only; omega)⟩
  have hok : CmdOK env kind tz i.revision o.compression (.union (.hello ⟨0, host, o⟩) (.sendQuery q ⟨i.revision, host, o⟩)) :=
    .union (.hello ⟨by dsimp only; rw [e4]; exact hfit.db, by dsimp only; rw [e2]; exact hfit.user, by dsimp only; rw [e3]; exact hfit.pass⟩)
      (.query rfl rfl hq)
  obtain ⟨bytes, hb, hread⟩ := C39_commands env kind tz i.revision o.compression _ hok
  obtain ⟨xs, hx, hrd⟩ := hread [] [] .nil
  rw [hm, List.append_nil, List.append_nil] at hrd
  cases hx with
  | union hxa hxb =>
    cases hxa
    cases hxb with
    | query hcol =>
      rename_i b
      refine ⟨bytes, seenQuery q ⟨i.revision, host, o⟩, b, hb, ?_, rfl, ?_, ?_, hcol⟩
      · dsimp only at hrd
        rw [e4, e2, e3] at hrd
        exact hrd
      · rw [← e5]; rfl
      · exact url_tells hp h (by dsimp only; omega)

/-- `tcp://me:x%40y@ch/shop?compression=lz4&max_threads=2&pool_min=3&max_threads=4`, as the URL parser answers it. -/
def exToldUrl : UrlParts :=
  ⟨"tcp", false, true, "me", some "x%40y", "ch", none, some ["shop"],
    [("compression", "lz4"), ("max_threads", "2"), ("pool_min", "3"), ("max_threads", "4")]⟩

/-- A library that knows this URL. -/
def exToldLib : UrlLib := ⟨fun _ => some exToldUrl, fun _ => ""⟩

theorem exOpenAny (ctx : Context) : ∃ h, Client.open false {} ⟨"ch", some 9000⟩ ctx true exOpenEnv = .ok (.plain 2, h) := by
  have hh : (Handle.mk (some ⟨[], exOpenEnv.server 2, false, []⟩) ctx .detached).hello =
      (.ok (), ⟨some ⟨[], exOpenEnv.server 2, false, [.hello ctx]⟩, { ctx with revision := 54460 }, .detached⟩) := by
    unfold Handle.hello
    simp only [Conn.call, List.nil_append]
    rw [loop_item (next_taken (p := .hello exGreeting) (rest := []) rfl rfl)]
    simp only [helloBody]
    rw [loop_ended next_none]
    rfl
  refine ⟨_, open_of ?_ rfl hh⟩
  show CState.await _ (8 + 1 + 1) (.tcpWait [⟨1, some 0, some "refused"⟩, ⟨2, some 1, none⟩]) = _
  simp only [CState.await, CState.poll, exPoll1, exPoll2]

example : ∃ o s h, fromUrl exToldLib "tcp://me:x%40y@ch/shop?…" = .ok o ∧ UrlUser exToldUrl.username "me" ∧
    UrlPassword exToldUrl.password "x@y" ∧ UrlDatabase exToldUrl.segments "shop" ∧ UrlCompression exToldUrl.query 1 ∧
    UrlFits exToldUrl "me" "x@y" "shop" ∧ Client.open false {} o.addr ⟨0, "box", o⟩ true exOpenEnv = .ok (s, h) ∧
    TellsSettings exToldUrl.query [.flagged "max_threads" true "4"] := by
  have hx : Writes "x@y" "x%40y" := by
    show Encodes [120, 64, 121] [120, 37, 52, 48, 121]
    exact .plain (by decide) (.escaped (hi := 4) (lo := 0) (.digit (n := 4) (by decide)) (.digit (n := 0) (by decide)) rfl
      (.plain (by decide) .nil))
  have hf := C98_url_and_calls exToldLib "tcp://me:x%40y@ch/shop?…" exToldUrl [.username "me"] [.password "x@y"] [.database "shop"]
    [.compression, .setting "max_threads" (.string "2") true, .poolMin 3, .setting "max_threads" (.string "4") true] rfl rfl rfl rfl
    (.some (writes_plain (by decide)) (by decide)) (.some hx) (.database (by decide))
    (.cons (.compression (writes_plain (by decide))) (.cons (.setting (by decide))
      (.cons (.poolMin (writes_plain (by decide)) ((parseUsize_iff _ _).mp (by decide))) (.cons (.setting (by decide)) .nil))))
  obtain ⟨h, ho⟩ := exOpenAny ⟨0, "box", _⟩
  have ht := url_tells (lib := exToldLib) (u := exToldUrl) rfl hf (Nat.le_refl 54429)
  exact ⟨_, _, h, hf, .given (writes_plain (by decide)) (by decide), .given hx,
    .given (writes_plain (by decide)) (by decide) (by decide), .on (e := "lz4") (by decide) (writes_plain (by decide)),
    ⟨by decide, by decide, by decide, by decide, by decide⟩, ho, ht⟩

end CH.Props
