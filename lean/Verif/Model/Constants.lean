import Verif.Model.Str

/-! # common/constants/ckube.go -/

namespace Ckube

/-- `constants.PaginateKey` (common/constants/ckube.go:4) -/
def paginateKey : Str := lit "ckube.daocloud.io/query"
/-- `constants.AdvancedSearchPrefix` (common/constants/ckube.go:5) -/
def advPrefix : Str := lit "__ckube_as__:"
/-- `constants.SortASC`, `constants.SortDesc` (common/constants/ckube.go:6-7) -/
def sortAsc : Str := lit "asc"
def sortDesc : Str := lit "desc"
/-- `constants.KeyTypeSep` (common/constants/ckube.go:8), one byte -/
def keyTypeSep : UInt8 := 33
/-- `constants.KeyTypeInt`, `constants.KeyTypeStr` (common/constants/ckube.go:9-10) -/
def keyTypeInt : Str := lit "int"
def keyTypeStr : Str := lit "str"
/-- `constants.SearchPartsSep` (common/constants/ckube.go:11) -/
def partsSep : UInt8 := 59
/-- `constants.DSMClusterAnno` (common/constants/ckube.go:12) -/
def clusterAnno : Str := lit "ckube.doacloud.io/cluster"
/-- `constants.ClusterPrefix` (common/constants/ckube.go:13) -/
def clusterPrefix : Str := lit "dsm-cluster-"
/-- `constants.IndexAnno` (common/constants/ckube.go:14) -/
def indexAnno : Str := lit "ckube.daocloud.io/indexes"

end Ckube
