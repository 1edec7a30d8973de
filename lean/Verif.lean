import Verif.Audit
import Verif.Lemmas.Aclcheck
import Verif.Lemmas.Aclgen
import Verif.Lemmas.AristaTp
import Verif.Lemmas.AristaTpNames
import Verif.Lemmas.Basic
import Verif.Lemmas.Canonical
import Verif.Lemmas.Cgrep
import Verif.Lemmas.Cisco
import Verif.Lemmas.Cleanup
import Verif.Lemmas.CloudArmor
import Verif.Lemmas.Collapse
import Verif.Lemmas.Exclude
import Verif.Lemmas.FirstMatch
import Verif.Lemmas.Fix
import Verif.Lemmas.Flat
import Verif.Lemmas.Gce
import Verif.Lemmas.GcpHf
import Verif.Lemmas.Iface
import Verif.Lemmas.Include
import Verif.Lemmas.IncludeText
import Verif.Lemmas.Iptables
import Verif.Lemmas.IptablesFilter
import Verif.Lemmas.IptablesRules
import Verif.Lemmas.IptablesTerm
import Verif.Lemmas.Juniper
import Verif.Lemmas.JuniperComment
import Verif.Lemmas.JuniperConfig
import Verif.Lemmas.JuniperEvo
import Verif.Lemmas.JuniperTerm
import Verif.Lemmas.JuniperText
import Verif.Lemmas.Keywords
import Verif.Lemmas.Load
import Verif.Lemmas.Msmpc
import Verif.Lemmas.MsmpcApp
import Verif.Lemmas.NacMore
import Verif.Lemmas.Naming
import Verif.Lemmas.NamingMore
import Verif.Lemmas.NamingOrder
import Verif.Lemmas.Net
import Verif.Lemmas.Nftables
import Verif.Lemmas.OpenConfig
import Verif.Lemmas.PanApp
import Verif.Lemmas.PanBook
import Verif.Lemmas.PanGroup
import Verif.Lemmas.PanLoop
import Verif.Lemmas.PanMade
import Verif.Lemmas.PanRule
import Verif.Lemmas.PanRuled
import Verif.Lemmas.PanSides
import Verif.Lemmas.Parents
import Verif.Lemmas.Parse
import Verif.Lemmas.Pcap
import Verif.Lemmas.Policy
import Verif.Lemmas.PolicyBuild
import Verif.Lemmas.PolicyLex
import Verif.Lemmas.PolicyParse
import Verif.Lemmas.PolicyReads
import Verif.Lemmas.Port
import Verif.Lemmas.PortParents
import Verif.Lemmas.Ports
import Verif.Lemmas.Prefix
import Verif.Lemmas.PyStr
import Verif.Lemmas.Reader
import Verif.Lemmas.Services
import Verif.Lemmas.Shading
import Verif.Lemmas.Simple
import Verif.Lemmas.SimplePrint
import Verif.Lemmas.Sonic
import Verif.Lemmas.Sort
import Verif.Lemmas.SrxBook
import Verif.Lemmas.Summarizer
import Verif.Lemmas.Tf
import Verif.Lemmas.Translate
import Verif.Lemmas.Versa
import Verif.Lemmas.VersaTree
import Verif.Lemmas.Wrap
import Verif.Lemmas.Zone
import Verif.Model.AclReport
import Verif.Model.Aclcheck
import Verif.Model.Aclgen
import Verif.Model.Aclgenerator
import Verif.Model.AristaTp
import Verif.Model.Aruba
import Verif.Model.Asa
import Verif.Model.Attrs
import Verif.Model.Cgrep
import Verif.Model.Children
import Verif.Model.Cisco
import Verif.Model.CiscoDedup
import Verif.Model.CiscoDoc
import Verif.Model.CloudArmor
import Verif.Model.Descend
import Verif.Model.Err
import Verif.Model.Gce
import Verif.Model.GcpHf
import Verif.Model.Include
import Verif.Model.IpsetConfig
import Verif.Model.Iptables
import Verif.Model.Juniper
import Verif.Model.JuniperComment
import Verif.Model.JuniperEvo
import Verif.Model.JuniperText
import Verif.Model.K8s
import Verif.Model.Msmpc
import Verif.Model.Nacaddr
import Verif.Model.Naming
import Verif.Model.Net
import Verif.Model.Nftables
import Verif.Model.Nsx
import Verif.Model.OpenConfig
import Verif.Model.Packetfilter
import Verif.Model.Pan
import Verif.Model.Pcap
import Verif.Model.Policy
import Verif.Model.PolicyText
import Verif.Model.Port
import Verif.Model.PyStr
import Verif.Model.Simple
import Verif.Model.Sonic
import Verif.Model.Sort
import Verif.Model.Srx
import Verif.Model.SrxText
import Verif.Model.Summarizer
import Verif.Model.TermEq
import Verif.Model.Tf
import Verif.Model.Translate
import Verif.Model.Versa
import Verif.Model.VersaTree
import Verif.Model.Windows
import Verif.Model.Wrap
import Verif.Props.AclReport
import Verif.Props.Aclcheck
import Verif.Props.Aclgen
import Verif.Props.Aclgenerator
import Verif.Props.AristaTp
import Verif.Props.AristaTpOut
import Verif.Props.AristaTpRefuted
import Verif.Props.Aruba
import Verif.Props.ArubaRefuted
import Verif.Props.Asa
import Verif.Props.AsaRefuted
import Verif.Props.Cgrep
import Verif.Props.Children
import Verif.Props.Cisco
import Verif.Props.CiscoDedup
import Verif.Props.CiscoDoc
import Verif.Props.CiscoGroups
import Verif.Props.CiscoWhole
import Verif.Props.CloudArmor
import Verif.Props.Descend
import Verif.Props.Gce
import Verif.Props.GceLimits
import Verif.Props.GceRefuted
import Verif.Props.GcpHf
import Verif.Props.GcpHfLimits
import Verif.Props.GcpHfRefuted
import Verif.Props.Include
import Verif.Props.IpsetConfig
import Verif.Props.IpsetWhole
import Verif.Props.Iptables
import Verif.Props.IptablesFilter
import Verif.Props.IptablesRefuted
import Verif.Props.Juniper
import Verif.Props.JuniperComment
import Verif.Props.JuniperEvo
import Verif.Props.JuniperMixed
import Verif.Props.JuniperNeat
import Verif.Props.JuniperTerm
import Verif.Props.JuniperText
import Verif.Props.K8s
import Verif.Props.K8sRefuted
import Verif.Props.Msmpc
import Verif.Props.MsmpcOut
import Verif.Props.MsmpcRefuted
import Verif.Props.Nacaddr
import Verif.Props.Naming
import Verif.Props.NamingOrder
import Verif.Props.Nftables
import Verif.Props.NftablesPolicy
import Verif.Props.NftablesRefuted
import Verif.Props.Nsx
import Verif.Props.NsxCarry
import Verif.Props.NsxOut
import Verif.Props.NsxRefuted
import Verif.Props.NsxT
import Verif.Props.OpenConfig
import Verif.Props.OpenConfigRefuted
import Verif.Props.Packetfilter
import Verif.Props.PacketfilterRefuted
import Verif.Props.Pan
import Verif.Props.PanOut
import Verif.Props.PanRefuted
import Verif.Props.Pcap
import Verif.Props.PcapRefuted
import Verif.Props.Policy
import Verif.Props.PolicyText
import Verif.Props.PolicyTextRefuted
import Verif.Props.Port
import Verif.Props.Reader
import Verif.Props.Simple
import Verif.Props.Sonic
import Verif.Props.SonicRefuted
import Verif.Props.Srx
import Verif.Props.SrxApp
import Verif.Props.SrxOutput
import Verif.Props.SrxRead
import Verif.Props.SrxRefuted
import Verif.Props.SrxSplit
import Verif.Props.SrxText
import Verif.Props.Summarizer
import Verif.Props.TermEq
import Verif.Props.Tf
import Verif.Props.TfLimits
import Verif.Props.TfRefuted
import Verif.Props.Timeouts
import Verif.Props.Translate
import Verif.Props.Versa
import Verif.Props.VersaRefuted
import Verif.Props.VersaTree
import Verif.Props.Windows
import Verif.Props.WindowsIpsec
import Verif.Props.WindowsRefuted
import Verif.Props.Wrap
import Verif.Spec.AclReport
import Verif.Spec.Aclcheck
import Verif.Spec.Aclgen
import Verif.Spec.Aclgenerator
import Verif.Spec.AristaTp
import Verif.Spec.Aruba
import Verif.Spec.Asa
import Verif.Spec.Cgrep
import Verif.Spec.Cisco
import Verif.Spec.CiscoDoc
import Verif.Spec.CiscoWhole
import Verif.Spec.CloudArmor
import Verif.Spec.Descend
import Verif.Spec.Device
import Verif.Spec.FirstMatch
import Verif.Spec.Flat
import Verif.Spec.Gce
import Verif.Spec.GcpHf
import Verif.Spec.Include
import Verif.Spec.IpsetConfig
import Verif.Spec.Iptables
import Verif.Spec.Juniper
import Verif.Spec.JuniperComment
import Verif.Spec.JuniperEvo
import Verif.Spec.JuniperText
import Verif.Spec.K8s
import Verif.Spec.List
import Verif.Spec.Msmpc
import Verif.Spec.Naming
import Verif.Spec.Net
import Verif.Spec.Nftables
import Verif.Spec.Nsx
import Verif.Spec.OpenConfig
import Verif.Spec.Packetfilter
import Verif.Spec.Pan
import Verif.Spec.Pcap
import Verif.Spec.Policy
import Verif.Spec.PolicyText
import Verif.Spec.Port
import Verif.Spec.Simple
import Verif.Spec.Sonic
import Verif.Spec.Srx
import Verif.Spec.SrxText
import Verif.Spec.TermEq
import Verif.Spec.Tf
import Verif.Spec.Timeouts
import Verif.Spec.Translate
import Verif.Spec.Versa
import Verif.Spec.VersaText
import Verif.Spec.Windows
import Verif.Spec.Wrap
