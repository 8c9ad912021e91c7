import Verif.Lemmas.Url
/-!
# Properties of the URL parser
-/
namespace Verif.Url
open Verif Verif.Spec.Url Verif.Spec.Text

/-- A URL put together from components that can be told apart is accepted, and the components are handed out
again. -/
theorem C59_components (p : Parts) (h : Wf p) (hv : Utf8.valid (render p) = true) :
    ∃ u, parse (render p) = .ok u ∧ Reads u p :=
  ⟨urlOf p, parse_render h hv, reads_urlOf h hv⟩

/-- Every accepted text is the concatenation of the components handed out, with their delimiters. -/
theorem C59_accepted (s : Bytes) (hv : Utf8.valid s = true) (u : Url) (h : parse s = .ok u) :
    ∃ p, Wf p ∧ render p = s ∧ Reads u p := by
  rcases parse_cases hv with h' | ⟨p, hp, rfl⟩
  · rw [h'] at h; cases h
  · rw [parse_render hp hv] at h
    injection h with h
    subst h
    exact ⟨p, hp, rfl, reads_urlOf hp hv⟩

/-- A text is refused exactly if it cannot be put together from such components; nothing panics. -/
theorem C59_refused (s : Bytes) (hv : Utf8.valid s = true) :
    parse s ≠ .panic ∧ (parse s = .err ↔ ¬∃ p, Wf p ∧ render p = s) := by
  rcases parse_cases hv with h | ⟨p, hp, rfl⟩
  · refine ⟨by rw [h]; nofun, fun _ => ?_, fun _ => h⟩
    rintro ⟨p, hp, rfl⟩
    rw [parse_render hp hv] at h
    cases h
  · rw [parse_render hp hv]
    exact ⟨nofun, nofun, fun h => absurd ⟨p, hp, rfl⟩ h⟩

/-- The URL `http://user:p@ss:w@höst:0554/a?b/c?d#e`. -/
def demoParts : Parts where
  scheme := asc "http"
  user := some (asc "user", some (asc "p@ss:w"))
  host := asc "h" ++ [0xc3, 0xb6] ++ asc "st"
  port := some (asc "0554")
  tail := some (asc "/a?b/c", some (asc "d"), some (asc "e"))

theorem demo_wf : Wf demoParts where
  scheme := by decide
  user := by
    intro n w h
    cases h
    refine ⟨by decide, by decide, ?_⟩
    intro x h
    cases h
    decide
  host := by decide
  noPort := nofun
  port := by
    intro t h
    cases h
    exact ⟨554, ⟨_, Or.inl rfl, by decide, by decide, by decide⟩, by decide⟩
  slash := by intro x q f h; cases h; decide
  query := by
    intro x q f h
    cases h
    exact ⟨nofun, by intro y h; cases h; decide⟩
  fragment := by
    intro x q f h
    cases h
    exact ⟨nofun, by intro y h; cases h; decide⟩

example : ∃ u, parse (render demoParts) = .ok u ∧ Reads u demoParts :=
  C59_components demoParts demo_wf (by decide +kernel)

example : (∃ u, parse (asc "rtsp://[::1]:554") = .ok u ∧ u.getHost = some (asc "[::1]") ∧ u.port = some 554) ∧
    parse (asc "http://foo:100000") = .err ∧ parse (asc "foo:bar") = .err :=
  ⟨⟨_, rfl, by decide +kernel, by decide +kernel⟩, rfl, rfl⟩

/-- What is not obvious: the host ends only at a slash. Without a slash, a query and a fragment become part of
the host. -/
theorem C59_no_slash (scheme rest : Bytes) (h1 : 58 ∉ scheme) (h2 : 47 ∉ rest ∧ 64 ∉ rest ∧ 58 ∉ rest)
    (hv : Utf8.valid (scheme ++ [58, 47, 47] ++ rest) = true) :
    ∃ u, parse (scheme ++ [58, 47, 47] ++ rest) = .ok u ∧ u.getHost = some rest ∧ u.port = none ∧
      u.getPath = some [47] ∧ u.getQuery = some none ∧ u.getFragment = some none := by
  have e : render ⟨scheme, none, rest, none, none⟩ = scheme ++ [58, 47, 47] ++ rest := by
    simp [render, userText, opt, tailText]
  rw [← e] at hv ⊢
  obtain ⟨u, hu, hr⟩ := C59_components ⟨scheme, none, rest, none, none⟩
    ⟨h1, nofun, ⟨h2.1, h2.2.1⟩, fun _ => Or.inl h2.2.2, nofun, nofun, nofun, nofun⟩ hv
  exact ⟨u, hu, hr.host, hr.port, hr.path, hr.query, hr.fragment⟩

example : ∃ u, parse (asc "http" ++ [58, 47, 47] ++ asc "host?x#y") = .ok u ∧
    u.getHost = some (asc "host?x#y") ∧ u.port = none ∧ u.getPath = some [47] ∧ u.getQuery = some none ∧
    u.getFragment = some none :=
  C59_no_slash _ _ (by decide) (by decide) (by decide +kernel)

/-- An IPv6 address without brackets is cut in two: its last group is taken for the port. -/
theorem C59_bare_v6 : ∃ u, parse (asc "http://fe80::1/") = .ok u ∧ u.getHost = some (asc "fe80:") ∧
    u.port = some 1 :=
  ⟨_, rfl, by decide +kernel, by decide +kernel⟩

end Verif.Url
