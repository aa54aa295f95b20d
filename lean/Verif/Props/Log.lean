import Verif.Model.Log
import Verif.Spec.Log
import Verif.Props.Options

/-! Property C83: the log does not reveal the password. -/

namespace CH.Props

open CH CH.Spec

/-- C83 fails for every URL with a password: the first line logged when the connection is opened contains the password as written in
the URL. -/
theorem C83_url_password_violated (lib : UrlLib) (l : LogLib) (text hostname : String) (u : UrlParts) (o : Options) (p : String)
    (hu : lib.parse text = some u) (ho : fromUrl lib text = .ok o) (hp : u.password = some p) (hne : p ≠ "") :
    ∃ line ∈ openUrlLog lib l text hostname, Reveals line p := by
  refine ⟨_, by rw [openUrlLog, hu, ho]; exact .head _, "try to connect to ".toList ++ "tcp://".toList ++ u.username.toList ++ [':'],
    '@' :: (u.host.toList ++ ':' :: natChars (u.port.getD 9000)), ?_⟩
  simp only [AddrUrl.text, addrUrl, AddrUrl.userinfo, hp, if_neg hne, List.append_assoc, List.cons_append, List.nil_append]

theorem reveals_after {a b : Str} {s : String} (h : Reveals b s) : Reveals (a ++ b) s := by
  obtain ⟨pre, post, rfl⟩ := h
  exact ⟨a ++ pre, post, by simp only [List.append_assoc]⟩

theorem reveals_before {a b : Str} {s : String} (h : Reveals a s) : Reveals (a ++ b) s := by
  obtain ⟨pre, post, rfl⟩ := h
  exact ⟨pre, post ++ b, by simp only [List.append_assoc]⟩

/-- So does the second line, if `Debug` of a string contains the string (it does unless a character needs escaping). -/
theorem C83_hello_password_violated (lib : UrlLib) (l : LogLib) (text hostname : String) (u : UrlParts) (o : Options) (p : String)
    (hu : lib.parse text = some u) (ho : fromUrl lib text = .ok o) (hp : u.password = some p) (hq : Reveals (l.quote p) p) :
    ∃ line, (openUrlLog lib l text hostname)[1]? = some line ∧ Reveals line p := by
  refine ⟨"[hello] -> ".toList ++ contextDebug l (addrUrl u) o hostname, by
    rw [openUrlLog, hu, ho]; simp only [openLog, List.getElem?_cons_succ, List.getElem?_cons_zero], ?_⟩
  apply reveals_after
  unfold contextDebug Options.debug AddrUrl.debug
  iterate 3 apply reveals_before
  apply reveals_after
  iterate 2 apply reveals_before
  apply reveals_after
  iterate 5 apply reveals_before
  apply reveals_after
  show Reveals (match u.password with
    | some p => "Some(".toList ++ l.quote p ++ ")".toList
    | none => "None".toList) p
  rw [hp]
  exact reveals_before (reveals_after hq)

/-- A URL with a password. -/
example : ∃ lib u o p, UrlLib.parse lib "tcp://u" = some u ∧ fromUrl lib "tcp://u" = .ok o ∧ u.password = some p ∧ p ≠ "" :=
  ⟨⟨fun _ => some ⟨"tcp", false, true, "me", some "secret", "h", none, none, []⟩, fun _ => ""⟩, _, _, _, rfl, rfl, rfl, by decide⟩

/-- C83, the part that holds: neither line depends on a password (or a user name) set with `Options::password`; only what the URL
itself carries is logged. -/
theorem C83_builder_partial (l : LogLib) (target a : AddrUrl) (o : Options) (hostname : String) :
    Hides (fun p => openLog l target a { o with password := p } hostname) ∧
    Hides (fun n => openLog l target a { o with username := n } hostname) :=
  ⟨fun _ _ => rfl, fun _ _ => rfl⟩

/-- Options built in code, with a password that is not in the address. -/
example : Hides fun p => openLog ⟨fun s => s.toList, fun s => s.toList, fun o => o.database.toList⟩ ⟨"default", none, "127.0.0.1", 9000⟩
    ⟨"default", none, "127.0.0.1", 9000⟩ { Options.default with password := p } "here" :=
  (C83_builder_partial _ _ _ _ _).1

end CH.Props
