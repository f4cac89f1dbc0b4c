import Verif.Model.Page

/-! # The command line tools (cmd/ckube-plugin/main.go, cmd/ckubecli/main.go)

Not modelled: the run of kubectl and the messages that are logged. -/

namespace Ckube

/-- The subcommand (cmd/ckube-plugin/main.go:14-19); `update` is never set. -/
inductive PlugCmd where
  | get | create | notSupport
deriving DecidableEq

/-- The variables of the loop (cmd/ckube-plugin/main.go:22-25). -/
structure PlugState where
  clusters : Str := []
  args : List Str := []
  typ : PlugCmd := .notSupport
  selectorPos : Nat := 0
deriving DecidableEq

/-- What the plugin does. -/
inductive PlugRes where
  | exit (code : Nat)
  | crash
  | run (args : List Str)
deriving DecidableEq

/-- The first switch (cmd/ckube-plugin/main.go:28-35). -/
def plugTyp (a : Str) (t : PlugCmd) : PlugCmd :=
  if a = lit "get" then .get else if a = lit "create" then .create else t

/-- The loop (cmd/ckube-plugin/main.go:26-50): `i` is the index in `os.Args`, the list holds the arguments from there on. -/
def plugLoop (i : Nat) (argv : List Str) (st : PlugState) : PlugState :=
  match argv with
  | [] => st
  | a :: rest =>
    let typ := plugTyp a st.typ
    if a = lit "--clusters" then
      match rest with
      | v :: rest' => plugLoop (i + 2) rest' { st with typ := typ, clusters := v }
      | [] => { st with typ := typ }
    else
      plugLoop (i + 1) rest { st with
        typ := typ
        args := st.args ++ [a]
        selectorPos := if (a = lit "-l" ∨ a = lit "--selector") ∧ rest ≠ [] then i + 1 else st.selectorPos }
termination_by argv.length
decreasing_by all_goals simp_wf <;> omega

/-- The pagination request for the clusters; the error of `Clusters` is ignored (cmd/ckube-plugin/main.go:61-62). -/
def plugPage (cs : List Str) : Paginate := { search := (setClusters [] cs).getD [] }

/-- The selector that replaces the given one; the error of `QueryListOptions` is ignored and the options are returned as
they were (cmd/ckube-plugin/main.go:67-69). -/
def plugSelector (sel : Str) (cs : List Str) : Str := (queryListOptions sel (plugPage cs)).getD sel

/-- `main` of the plugin (cmd/ckube-plugin/main.go:21-92) for the arguments after the program's name. -/
def plugin (argv : List Str) : PlugRes :=
  let st := plugLoop 1 argv {}
  match st.typ with
  | .notSupport => .exit 1
  | typ =>
    if st.clusters = [] then .run st.args
    else
      let cs := splitByte 44 st.clusters
      match typ with
      | .get =>
        if st.selectorPos = 0 then .run (st.args ++ [lit "-l", plugSelector [] cs])
        else match st.args[st.selectorPos]? with
          | none => .crash
          | some sel => .run (st.args.set st.selectorPos (plugSelector sel cs))
      | _ =>
        if cs.length > 1 then .exit 2
        else .run (st.args ++ [lit "--field-manager", (wrapField [] (cs.headD [])).1])

/-- `main` of ckubecli (cmd/ckubecli/main.go:14-42) for the values of the flags: what is printed, `none` when it exits with 1.
The text is given to `Printf` as a format; `printf` is what that prints. The error of `Clusters` is ignored. -/
def ckubecli (printf : Str → Str) (page size : Int) (sort search clusters : Str) : Option Str :=
  let search := if clusters = [] then search else (setClusters search (splitByte 44 clusters)).getD search
  (queryListOptions [] { page := page, pageSize := size, sort := sort, search := search }).map printf

end Ckube
