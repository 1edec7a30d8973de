import Verif.Props.AclReport
import Verif.Props.Aclcheck
import Verif.Props.Aclgen
import Verif.Props.Aclgenerator
import Verif.Props.AristaTp
import Verif.Props.AristaTpOut
import Verif.Props.AristaTpRefuted
import Verif.Props.Aruba
import Verif.Props.ArubaRefuted
import Verif.Props.Asa
import Verif.Props.AsaRefuted
import Verif.Props.Cgrep
import Verif.Props.Children
import Verif.Props.Cisco
import Verif.Props.CiscoDedup
import Verif.Props.CiscoDoc
import Verif.Props.CiscoGroups
import Verif.Props.CiscoWhole
import Verif.Props.CloudArmor
import Verif.Props.Descend
import Verif.Props.Gce
import Verif.Props.GceLimits
import Verif.Props.GceRefuted
import Verif.Props.GcpHf
import Verif.Props.GcpHfLimits
import Verif.Props.GcpHfRefuted
import Verif.Props.Include
import Verif.Props.IpsetConfig
import Verif.Props.IpsetWhole
import Verif.Props.Iptables
import Verif.Props.IptablesFilter
import Verif.Props.IptablesRefuted
import Verif.Props.Juniper
import Verif.Props.JuniperComment
import Verif.Props.JuniperEvo
import Verif.Props.JuniperMixed
import Verif.Props.JuniperNeat
import Verif.Props.JuniperTerm
import Verif.Props.JuniperText
import Verif.Props.K8s
import Verif.Props.K8sRefuted
import Verif.Props.Msmpc
import Verif.Props.MsmpcOut
import Verif.Props.MsmpcRefuted
import Verif.Props.Nacaddr
import Verif.Props.Naming
import Verif.Props.NamingOrder
import Verif.Props.Nftables
import Verif.Props.NftablesPolicy
import Verif.Props.NftablesRefuted
import Verif.Props.Nsx
import Verif.Props.NsxCarry
import Verif.Props.NsxOut
import Verif.Props.NsxRefuted
import Verif.Props.NsxT
import Verif.Props.OpenConfig
import Verif.Props.OpenConfigRefuted
import Verif.Props.Packetfilter
import Verif.Props.PacketfilterRefuted
import Verif.Props.Pan
import Verif.Props.PanOut
import Verif.Props.PanRefuted
import Verif.Props.Pcap
import Verif.Props.PcapRefuted
import Verif.Props.Policy
import Verif.Props.PolicyText
import Verif.Props.PolicyTextRefuted
import Verif.Props.Port
import Verif.Props.Reader
import Verif.Props.Simple
import Verif.Props.Sonic
import Verif.Props.SonicRefuted
import Verif.Props.Srx
import Verif.Props.SrxApp
import Verif.Props.SrxOutput
import Verif.Props.SrxRead
import Verif.Props.SrxRefuted
import Verif.Props.SrxSplit
import Verif.Props.SrxText
import Verif.Props.Summarizer
import Verif.Props.TermEq
import Verif.Props.Tf
import Verif.Props.TfLimits
import Verif.Props.TfRefuted
import Verif.Props.Timeouts
import Verif.Props.Translate
import Verif.Props.Versa
import Verif.Props.VersaRefuted
import Verif.Props.VersaTree
import Verif.Props.Windows
import Verif.Props.WindowsIpsec
import Verif.Props.WindowsRefuted
import Verif.Props.Wrap

/-! Axioms of every property theorem named in MANIFEST.json (printed during the build). -/

#print axioms Verif.Props.C01_collapse_denotation
#print axioms Verif.Props.C01_collapse_total
#print axioms Verif.Props.C01_collapse_total_one_family
#print axioms Verif.Props.C01_not_total_mixed
#print axioms Verif.Props.C02_canonical
#print axioms Verif.Props.C02_order_independent
#print axioms Verif.Props.C02_idempotent
#print axioms Verif.Props.C03_minimal
#print axioms Verif.Props.C04_lpm_preserved_partial
#print axioms Verif.Props.C04_refuted_siblings
#print axioms Verif.Props.C04_refuted_nested
#print axioms Verif.Props.C05_preserve_tokens
#print axioms Verif.Props.C06_remove_address
#print axioms Verif.Props.C07_exclude_raises
#print axioms Verif.Props.C07_exclude_partition
#print axioms Verif.Props.C08_address_list_exclude
#print axioms Verif.Props.C09_exclude_no_collapse_partial
#print axioms Verif.Props.C09_refuted_overlap
#print axioms Verif.Props.C09_refuted_mixed
#print axioms Verif.Props.C10_supernet_sound
#print axioms Verif.Props.C10_supernet_exact
#print axioms Verif.Props.C10_incomplete_uncollapsed
#print axioms Verif.Props.C100_decides
#print axioms Verif.Props.C100_size_partial
#print axioms Verif.Props.C100_refuted_size
#print axioms Verif.Props.C100_refuted_tokens
#print axioms Verif.Props.C101_then_partial
#print axioms Verif.Props.C101_refuted_expresspath
#print axioms Verif.Props.C101_refuted_disable
#print axioms Verif.Props.C102_tokens
#print axioms Verif.Props.C102_layout
#print axioms Verif.Props.C102_files
#print axioms Verif.Props.C103_grammar
#print axioms Verif.Props.C103_unique
#print axioms Verif.Props.C103_refuted_false
#print axioms Verif.Props.C103_refuted_attribute
#print axioms Verif.Props.C104_says
#print axioms Verif.Props.C104_values
#print axioms Verif.Props.C104_term
#print axioms Verif.Props.C104_order
#print axioms Verif.Props.C104_refuted_repeated
#print axioms Verif.Props.C105_reads
#print axioms Verif.Props.C105_complete_partial
#print axioms Verif.Props.C105_refuted_illegal
#print axioms Verif.Props.C106_verbatim_partial
#print axioms Verif.Props.C106_written
#print axioms Verif.Props.C106_refuted_quote
#print axioms Verif.Props.C107_names_partial
#print axioms Verif.Props.C107_refuted_names
#print axioms Verif.Props.C108_partial
#print axioms Verif.Props.C108_refuted_noports
#print axioms Verif.Props.C108_refuted_protocols
#print axioms Verif.Props.C108_refuted_order
#print axioms Verif.Props.C108_refuted_user
#print axioms Verif.Props.C108_refuted_platform
#print axioms Verif.Props.C108_refuted_exclude
#print axioms Verif.Props.C108_refuted_restrict
#print axioms Verif.Props.C108_refuted_case
#print axioms Verif.Props.C108_refuted_header
#print axioms Verif.Props.C109_refuted_never
#print axioms Verif.Props.C109_refuted_ports
#print axioms Verif.Props.C109_refuted_exclude
#print axioms Verif.Props.C109_refuted_reject
#print axioms Verif.Props.C11_summarize_exact
#print axioms Verif.Props.C110_defined
#print axioms Verif.Props.C110_once_partial
#print axioms Verif.Props.C110_refuted_case
#print axioms Verif.Props.C110_refuted_filters
#print axioms Verif.Props.C111_partial
#print axioms Verif.Props.C111_refuted_side
#print axioms Verif.Props.C111_refuted_lists
#print axioms Verif.Props.C111_refuted_both
#print axioms Verif.Props.C111_refuted_ports
#print axioms Verif.Props.C111_refuted_restrict
#print axioms Verif.Props.C111_refuted_embedded
#print axioms Verif.Props.C111_refuted_icmpv6
#print axioms Verif.Props.C111_refuted_other
#print axioms Verif.Props.C111_refuted_ipip
#print axioms Verif.Props.C111_refuted_families
#print axioms Verif.Props.C112_partial
#print axioms Verif.Props.C112_refuted
#print axioms Verif.Props.C113_limits
#print axioms Verif.Props.C114_ga_partial
#print axioms Verif.Props.C114_beta_partial
#print axioms Verif.Props.C114_refuted
#print axioms Verif.Props.C115_partial
#print axioms Verif.Props.C115_refuted_established
#print axioms Verif.Props.C115_refuted_exclude
#print axioms Verif.Props.C115_refuted_icmpv6
#print axioms Verif.Props.C115_refuted_protocol
#print axioms Verif.Props.C115_refuted_family
#print axioms Verif.Props.C115_refuted_ports
#print axioms Verif.Props.C115_refuted_twice
#print axioms Verif.Props.C116_partial
#print axioms Verif.Props.C116_refuted_icmpv6
#print axioms Verif.Props.C116_refuted_next
#print axioms Verif.Props.C116_refuted_protocol
#print axioms Verif.Props.C116_refuted_none
#print axioms Verif.Props.C117_partial
#print axioms Verif.Props.C117_refuted_more
#print axioms Verif.Props.C117_refuted_after
#print axioms Verif.Props.C118_partial
#print axioms Verif.Props.C118_refuted_version
#print axioms Verif.Props.C118_refuted_option
#print axioms Verif.Props.C118_refuted_replies
#print axioms Verif.Props.C118_refuted_protocol
#print axioms Verif.Props.C118_refuted_ports
#print axioms Verif.Props.C118_refuted_icmp
#print axioms Verif.Props.C118_refuted_any
#print axioms Verif.Props.C118_refuted_family
#print axioms Verif.Props.C119_partial
#print axioms Verif.Props.C119_refuted
#print axioms Verif.Props.C12_rendering_partial
#print axioms Verif.Props.C12_refuted
#print axioms Verif.Props.C120_partial
#print axioms Verif.Props.C120_refuted_ranges
#print axioms Verif.Props.C120_refuted_zero
#print axioms Verif.Props.C120_refuted_shared
#print axioms Verif.Props.C120_refuted_protocol
#print axioms Verif.Props.C120_refuted_ports
#print axioms Verif.Props.C120_refuted_option
#print axioms Verif.Props.C120_refuted_family
#print axioms Verif.Props.C120_refuted_icmpv6
#print axioms Verif.Props.C121_partial
#print axioms Verif.Props.C121_refuted_policy
#print axioms Verif.Props.C121_refuted_twice
#print axioms Verif.Props.C122_partial
#print axioms Verif.Props.C122_refuted_deny
#print axioms Verif.Props.C122_refuted_option
#print axioms Verif.Props.C122_refuted_established
#print axioms Verif.Props.C122_refuted_icmp
#print axioms Verif.Props.C122_refuted_port
#print axioms Verif.Props.C122_refuted_length
#print axioms Verif.Props.C122_refuted_fragment
#print axioms Verif.Props.C122_refuted_exclude
#print axioms Verif.Props.C122_refuted_around
#print axioms Verif.Props.C122_refuted_default
#print axioms Verif.Props.C122_refuted_shared
#print axioms Verif.Props.C122_refuted_renamed
#print axioms Verif.Props.C122_refuted_removed
#print axioms Verif.Props.C123_partial
#print axioms Verif.Props.C123_refuted_excluded
#print axioms Verif.Props.C123_refuted_renamed
#print axioms Verif.Props.C124_partial
#print axioms Verif.Props.C124_refuted_renamed
#print axioms Verif.Props.C125_replaces
#print axioms Verif.Props.C126_partial
#print axioms Verif.Props.C122_refuted_removed
#print axioms Verif.Props.C127_partial
#print axioms Verif.Props.C127_refuted_version
#print axioms Verif.Props.C127_refuted_excluded
#print axioms Verif.Props.C127_refuted_exclude
#print axioms Verif.Props.C127_refuted_zero
#print axioms Verif.Props.C127_refuted_icmp
#print axioms Verif.Props.C127_refuted_icmpv6
#print axioms Verif.Props.C127_refuted_ports
#print axioms Verif.Props.C127_refuted_established
#print axioms Verif.Props.C127_refuted_family
#print axioms Verif.Props.C128_partial
#print axioms Verif.Props.C128_refuted_protocol
#print axioms Verif.Props.C128_refuted_zero
#print axioms Verif.Props.C128_refuted_mixed
#print axioms Verif.Props.C128_refuted_any
#print axioms Verif.Props.C128_refuted_excluded
#print axioms Verif.Props.C128_refuted_ports
#print axioms Verif.Props.C129_sources
#print axioms Verif.Props.C129_destinations_partial
#print axioms Verif.Props.C129_refuted
#print axioms Verif.Props.C13_ports_denotation
#print axioms Verif.Props.C13_minimal_partial
#print axioms Verif.Props.C13_refuted
#print axioms Verif.Props.C130_nsxv_partial
#print axioms Verif.Props.C130_nsxt_partial
#print axioms Verif.Props.C130_refuted_two
#print axioms Verif.Props.C130_refuted_together
#print axioms Verif.Props.C130_refuted_comment
#print axioms Verif.Props.C131_section
#print axioms Verif.Props.C131_policy
#print axioms Verif.Props.C132_partial
#print axioms Verif.Props.C132_refuted_families
#print axioms Verif.Props.C132_refuted_split
#print axioms Verif.Props.C132_refuted_shared
#print axioms Verif.Props.C132_refuted_zones
#print axioms Verif.Props.C132_refuted_excluded
#print axioms Verif.Props.C132_refuted_exclude
#print axioms Verif.Props.C132_refuted_ports
#print axioms Verif.Props.C132_refuted_sctp
#print axioms Verif.Props.C132_refuted_icmpv6
#print axioms Verif.Props.C132_refuted_names
#print axioms Verif.Props.C133_members
#print axioms Verif.Props.C133_services
#print axioms Verif.Props.C133_apps
#print axioms Verif.Props.C133_any
#print axioms Verif.Props.C133_partial
#print axioms Verif.Props.C133_refuted
#print axioms Verif.Props.C133_refuted_keyError
#print axioms Verif.Props.C134
#print axioms Verif.Props.C134_rules_partial
#print axioms Verif.Props.C134_refuted
#print axioms Verif.Props.C134_refuted_prefix
#print axioms Verif.Props.C135
#print axioms Verif.Props.C136
#print axioms Verif.Props.C137_policy_partial
#print axioms Verif.Props.C137_refuted_priority
#print axioms Verif.Props.C137_refuted_tags
#print axioms Verif.Props.C137_refuted_accounts
#print axioms Verif.Props.C137_refuted_family
#print axioms Verif.Props.C137_refuted_exclude
#print axioms Verif.Props.C137_refuted_embedded
#print axioms Verif.Props.C137_refuted_icmpv6
#print axioms Verif.Props.C137_refuted_igmp
#print axioms Verif.Props.C137_refuted_restrict
#print axioms Verif.Props.C137_refuted_deny
#print axioms Verif.Props.C137_refuted_network
#print axioms Verif.Props.C138_sizes_partial
#print axioms Verif.Props.C138_quota
#print axioms Verif.Props.C138_refuted_description
#print axioms Verif.Props.C138_refuted_tag
#print axioms Verif.Props.C139_names_partial
#print axioms Verif.Props.C139_refuted_parts
#print axioms Verif.Props.C139_refuted_filters
#print axioms Verif.Props.C139_refuted_mixed
#print axioms Verif.Props.C14_port_contained_sound
#print axioms Verif.Props.C14_port_contained_exact
#print axioms Verif.Props.C14_empty_superset
#print axioms Verif.Props.C140_numbered_partial
#print axioms Verif.Props.C140_refuted_stated
#print axioms Verif.Props.C140_refuted_same
#print axioms Verif.Props.C141_descriptions_partial
#print axioms Verif.Props.C141_refuted_owner
#print axioms Verif.Props.C141_refuted_twice
#print axioms Verif.Props.C142_sound
#print axioms Verif.Props.C142_exact_partial
#print axioms Verif.Props.C142_refuted
#print axioms Verif.Props.C142_refuted_service
#print axioms Verif.Props.C142_service_partial
#print axioms Verif.Props.C143_partial
#print axioms Verif.Props.C143_undefined
#print axioms Verif.Props.C143_refuted_first
#print axioms Verif.Props.C143_refuted_letter
#print axioms Verif.Props.C144_partial
#print axioms Verif.Props.C145_partial
#print axioms Verif.Props.C146_union
#print axioms Verif.Props.C146_refuted
#print axioms Verif.Props.C147_partial
#print axioms Verif.Props.C148_undefined
#print axioms Verif.Props.C148_refuted
#print axioms Verif.Props.C148_services_partial
#print axioms Verif.Props.C148_services_undefined
#print axioms Verif.Props.C149_reads_partial
#print axioms Verif.Props.C149_refuted_same
#print axioms Verif.Props.C149_refuted_comment
#print axioms Verif.Props.C149_refuted_string
#print axioms Verif.Props.C15_contains_sound_partial
#print axioms Verif.Props.C15_refuted_protocol
#print axioms Verif.Props.C15_refuted_protocol_except
#print axioms Verif.Props.C15_refuted_exclude
#print axioms Verif.Props.C15_refuted_full_exclude
#print axioms Verif.Props.C15_refuted_option
#print axioms Verif.Props.C15_refuted_packet_length
#print axioms Verif.Props.C15_refuted_hop_limit
#print axioms Verif.Props.C15_refuted_unchecked
#print axioms Verif.Props.C150_matches_partial
#print axioms Verif.Props.C150_named_partial
#print axioms Verif.Props.C150_invalid
#print axioms Verif.Props.C150_refuted_unknown
#print axioms Verif.Props.C150_refuted_reserved
#print axioms Verif.Props.C150_refuted_range
#print axioms Verif.Props.C150_refuted_left_out
#print axioms Verif.Props.C150_refuted_number
#print axioms Verif.Props.C151_rules
#print axioms Verif.Props.C152_partial
#print axioms Verif.Props.C152_refuted
#print axioms Verif.Props.C153_partial
#print axioms Verif.Props.C153_refuted
#print axioms Verif.Props.C153_refuted_empty
#print axioms Verif.Props.C154_partial
#print axioms Verif.Props.C154_refuted_exclude
#print axioms Verif.Props.C154_refuted_zone
#print axioms Verif.Props.C154_refuted_same
#print axioms Verif.Props.C154_refuted_two
#print axioms Verif.Props.C154_refuted_bare
#print axioms Verif.Props.C154_refuted_option
#print axioms Verif.Props.C155_partial
#print axioms Verif.Props.C155_refuted
#print axioms Verif.Props.C156_section
#print axioms Verif.Props.C156_policy
#print axioms Verif.Props.C157_partial
#print axioms Verif.Props.C157_refuted_exclude
#print axioms Verif.Props.C157_refuted_nested
#print axioms Verif.Props.C157_refuted_option
#print axioms Verif.Props.C157_refuted_sctp
#print axioms Verif.Props.C157_refuted_zero
#print axioms Verif.Props.C157_refuted_icmp
#print axioms Verif.Props.C157_refuted_restrict
#print axioms Verif.Props.C158_partial
#print axioms Verif.Props.C158_refuted_names
#print axioms Verif.Props.C158_refuted_ports
#print axioms Verif.Props.C158_refuted_groups
#print axioms Verif.Props.C159_rules
#print axioms Verif.Props.C16_shading_error_iff
#print axioms Verif.Props.C16_shading_ok
#print axioms Verif.Props.C16_delete_covered
#print axioms Verif.Props.C16_delete_reported_partial
#print axioms Verif.Props.C160_needed
#print axioms Verif.Props.C160_enough
#print axioms Verif.Props.C160_refuted_action
#print axioms Verif.Props.C160_refuted_long
#print axioms Verif.Props.C161_partial
#print axioms Verif.Props.C161_refuted
#print axioms Verif.Props.C162_read
#print axioms Verif.Props.C162_brace
#print axioms Verif.Props.C163_again_partial
#print axioms Verif.Props.C163_less_partial
#print axioms Verif.Props.C163_refuted_names
#print axioms Verif.Props.C163_refuted_include
#print axioms Verif.Props.C164_verbatim_partial
#print axioms Verif.Props.C164_refuted
#print axioms Verif.Props.C165_fields
#print axioms Verif.Props.C165_members
#print axioms Verif.Props.C165_both
#print axioms Verif.Props.C166_filter_partial
#print axioms Verif.Props.C166_refuted
#print axioms Verif.Props.C167_other_partial
#print axioms Verif.Props.C167_physical_partial
#print axioms Verif.Props.C167_refuted_route
#print axioms Verif.Props.C167_refuted_mixed
#print axioms Verif.Props.C168_direction
#print axioms Verif.Props.C168_others
#print axioms Verif.Props.C169_keywords
#print axioms Verif.Props.C17_shading_preserves_partial
#print axioms Verif.Props.C17_refuted
#print axioms Verif.Props.C170_msmpc_partial
#print axioms Verif.Props.C170_srx
#print axioms Verif.Props.C170_refuted_zero
#print axioms Verif.Props.C171_hidden
#print axioms Verif.Props.C171_accepted_partial
#print axioms Verif.Props.C171_refuted_brace
#print axioms Verif.Props.C172_term_partial
#print axioms Verif.Props.C172_header_partial
#print axioms Verif.Props.C172_noverbose
#print axioms Verif.Props.C172_refuted_leak
#print axioms Verif.Props.C172_refuted_brace
#print axioms Verif.Props.C173_only
#print axioms Verif.Props.C173_all
#print axioms Verif.Props.C173_once
#print axioms Verif.Props.C173_ignored_partial
#print axioms Verif.Props.C173_refuted_deep
#print axioms Verif.Props.C173_refuted_base
#print axioms Verif.Props.C174_effect_partial
#print axioms Verif.Props.C174_filter_partial
#print axioms Verif.Props.C174_reflexive_partial
#print axioms Verif.Props.C174_symmetric
#print axioms Verif.Props.C174_refuted_fields
#print axioms Verif.Props.C174_refuted_mixed
#print axioms Verif.Props.C175_children
#print axioms Verif.Props.C175_unfold
#print axioms Verif.Props.C175_resolves
#print axioms Verif.Props.C175_refuted
#print axioms Verif.Props.C176_width
#print axioms Verif.Props.C176_marked
#print axioms Verif.Props.C176_shown_partial
#print axioms Verif.Props.C176_refuted_lost
#print axioms Verif.Props.C176_refuted_cut
#print axioms Verif.Props.C176_again_partial
#print axioms Verif.Props.C176_refuted_again
#print axioms Verif.Props.C177_lists_partial
#print axioms Verif.Props.C177_others
#print axioms Verif.Props.C177_groups_partial
#print axioms Verif.Props.C177_refuted_keep
#print axioms Verif.Props.C177_refuted_same
#print axioms Verif.Props.C177_refuted_xr
#print axioms Verif.Props.C177_refuted_group
#print axioms Verif.Props.C178_new_partial
#print axioms Verif.Props.C178_again_partial
#print axioms Verif.Props.C178_refuted_present
#print axioms Verif.Props.C178_refuted_stale
#print axioms Verif.Props.C178_refuted_grown
#print axioms Verif.Props.C178_refuted_option
#print axioms Verif.Props.C179_read_partial
#print axioms Verif.Props.C179_refuted_comment
#print axioms Verif.Props.C179_refuted_header
#print axioms Verif.Props.C18_cleanup_preserves
#print axioms Verif.Props.C18_cleanup_total
#print axioms Verif.Props.C18_not_total_mixed
#print axioms Verif.Props.C180_router_partial
#print axioms Verif.Props.C180_refuted_same
#print axioms Verif.Props.C181_host_partial
#print axioms Verif.Props.C182_report
#print axioms Verif.Props.C182_sentences
#print axioms Verif.Props.C183_order_partial
#print axioms Verif.Props.C183_refuted
#print axioms Verif.Props.C184_read_partial
#print axioms Verif.Props.C184_policy_partial
#print axioms Verif.Props.C184_refuted
#print axioms Verif.Props.C185_read_partial
#print axioms Verif.Props.C185_refuted
#print axioms Verif.Props.C19_ports_exact
#print axioms Verif.Props.C19_rejects
#print axioms Verif.Props.C20_sanity_partial
#print axioms Verif.Props.C20_policy_error_partial
#print axioms Verif.Props.C20_refuted_keyError
#print axioms Verif.Props.C20_refuted_ether
#print axioms Verif.Props.C20_translated_partial
#print axioms Verif.Props.C21_address_of_version
#print axioms Verif.Props.C22_resolves_partial
#print axioms Verif.Props.C22_undefined_partial
#print axioms Verif.Props.C22_result_exact
#print axioms Verif.Props.C22_loaded
#print axioms Verif.Props.C22_depth
#print axioms Verif.Props.C22_cycle_diverges
#print axioms Verif.Props.C22_refuted
#print axioms Verif.Props.C23_resolves_partial
#print axioms Verif.Props.C23_undefined_partial
#print axioms Verif.Props.C23_byProto_partial
#print axioms Verif.Props.C23_result_exact
#print axioms Verif.Props.C23_depth
#print axioms Verif.Props.C23_cycle_diverges
#print axioms Verif.Props.C23_refuted
#print axioms Verif.Props.C24_kept
#print axioms Verif.Props.C24_duplicate
#print axioms Verif.Props.C24_history
#print axioms Verif.Props.C24_directory_partial
#print axioms Verif.Props.C24_refuted
#print axioms Verif.Props.C25_networks_partial
#print axioms Verif.Props.C25_services_partial
#print axioms Verif.Props.C25_resolves_partial
#print axioms Verif.Props.C25_refuted
#print axioms Verif.Props.C26_ip_partial
#print axioms Verif.Props.C26_port_partial
#print axioms Verif.Props.C26_parents_partial
#print axioms Verif.Props.C26_ip_refuted
#print axioms Verif.Props.C26_port_refuted
#print axioms Verif.Props.C26_parents_refuted
#print axioms Verif.Props.C27_port_text
#print axioms Verif.Props.C27_bad_range
#print axioms Verif.Props.C27_bad_value
#print axioms Verif.Props.C27_text_unique
#print axioms Verif.Props.C27_port_int
#print axioms Verif.Props.C27_contains
#print axioms Verif.Props.C27_contains_not_range
#print axioms Verif.Props.C27_compare
#print axioms Verif.Props.C28_reads_below
#print axioms Verif.Props.C28_subdirectory
#print axioms Verif.Props.C28_escape
#print axioms Verif.Props.C28_plain_names
#print axioms Verif.Props.C28_include_line
#print axioms Verif.Props.C28_join
#print axioms Verif.Props.C29_expansion
#print axioms Verif.Props.C29_failure
#print axioms Verif.Props.C29_chain
#print axioms Verif.Props.C29_depth_only
#print axioms Verif.Props.C29_depth
#print axioms Verif.Props.C29_limit
#print axioms Verif.Props.C29_lines
#print axioms Verif.Props.C30_report
#print axioms Verif.Props.C30_possible
#print axioms Verif.Props.C30_unique
#print axioms Verif.Props.C30_fails
#print axioms Verif.Props.C30_arguments
#print axioms Verif.Props.C30_no_miss_partial
#print axioms Verif.Props.C30_first_match_partial
#print axioms Verif.Props.C30_refuted
#print axioms Verif.Props.C31_addresses_partial
#print axioms Verif.Props.C31_refuted
#print axioms Verif.Props.C32_unchanged
#print axioms Verif.Props.C32_established
#print axioms Verif.Props.C32_family
#print axioms Verif.Props.C33_bounded
#print axioms Verif.Props.C33_fits
#print axioms Verif.Props.C33_error
#print axioms Verif.Props.C33_truncate
#print axioms Verif.Props.C33_abbreviate
#print axioms Verif.Props.C34_types
#print axioms Verif.Props.C34_length
#print axioms Verif.Props.C34_injective
#print axioms Verif.Props.C34_errors
#print axioms Verif.Props.C35_refused_partial
#print axioms Verif.Props.C35_total
#print axioms Verif.Props.C35_refuted
#print axioms Verif.Props.C36_text
#print axioms Verif.Props.C36_entry
#print axioms Verif.Props.C36_second_partial
#print axioms Verif.Props.C36_refuted
#print axioms Verif.Props.C37_sequential
#print axioms Verif.Props.C37_renders
#print axioms Verif.Props.C37_parallel
#print axioms Verif.Props.C37_outcome
#print axioms Verif.Props.C37_failed_policy
#print axioms Verif.Props.C38_same
#print axioms Verif.Props.C38_progress
#print axioms Verif.Props.C38_terminates
#print axioms Verif.Props.C39_exact_partial
#print axioms Verif.Props.C39_lines_valid
#print axioms Verif.Props.C39_renders
#print axioms Verif.Props.C39_refuted_mixed
#print axioms Verif.Props.C39_refuted_exclude
#print axioms Verif.Props.C39_refuted_address
#print axioms Verif.Props.C39_refuted_fragment
#print axioms Verif.Props.C39_refuted_established
#print axioms Verif.Props.C39_refuted_ipv6
#print axioms Verif.Props.C39_refuted_ttl
#print axioms Verif.Props.C39_refuted_number
#print axioms Verif.Props.C40_not_widened_partial
#print axioms Verif.Props.C40_refuted_standard
#print axioms Verif.Props.C40_refuted_objectgroup
#print axioms Verif.Props.C41_groups_partial
#print axioms Verif.Props.C41_references
#print axioms Verif.Props.C41_ports
#print axioms Verif.Props.C41_refuted_shared
#print axioms Verif.Props.C41_refuted_undefined
#print axioms Verif.Props.C42_ports
#print axioms Verif.Props.C43_minimize
#print axioms Verif.Props.C43_minimal
#print axioms Verif.Props.C44_addresses_partial
#print axioms Verif.Props.C44_most_specific
#print axioms Verif.Props.C44_refuted_exclude_only
#print axioms Verif.Props.C44_refuted_nested
#print axioms Verif.Props.C45_balanced_partial
#print axioms Verif.Props.C45_indentation
#print axioms Verif.Props.C45_accepts
#print axioms Verif.Props.C45_refuted_comments
#print axioms Verif.Props.C45_refuted_verbatim
#print axioms Verif.Props.C46_partial
#print axioms Verif.Props.C46_refuted
#print axioms Verif.Props.C69_refuted_exclude
#print axioms Verif.Props.C47
#print axioms Verif.Props.C48_partial
#print axioms Verif.Props.C48_names
#print axioms Verif.Props.C48_addresses
#print axioms Verif.Props.C48_refuted_names
#print axioms Verif.Props.C48_refuted_next
#print axioms Verif.Props.C49_partial
#print axioms Verif.Props.C49_refuted_source
#print axioms Verif.Props.C49_refuted_exclude
#print axioms Verif.Props.C49_refuted_excludes
#print axioms Verif.Props.C49_refuted_any6
#print axioms Verif.Props.C49_refuted_not6
#print axioms Verif.Props.C49_refuted_icmpv6
#print axioms Verif.Props.C49_refuted_codes
#print axioms Verif.Props.C49_refuted_established
#print axioms Verif.Props.C49_refuted_rst
#print axioms Verif.Props.C49_refuted_none
#print axioms Verif.Props.C49_refuted_flags6
#print axioms Verif.Props.C49_refuted_options
#print axioms Verif.Props.C49_refuted_family
#print axioms Verif.Props.C49_refuted_tag
#print axioms Verif.Props.C49_refuted_protocol
#print axioms Verif.Props.C50_partial
#print axioms Verif.Props.C50_filters_partial
#print axioms Verif.Props.C50_refuted_accepts
#print axioms Verif.Props.C50_refuted_deny
#print axioms Verif.Props.C50_refuted_denies
#print axioms Verif.Props.C50_refuted_order
#print axioms Verif.Props.C50_refuted_all
#print axioms Verif.Props.C50_refuted_invert
#print axioms Verif.Props.C50_refuted_family
#print axioms Verif.Props.C50_refuted_direction
#print axioms Verif.Props.C50_refuted_syntax
#print axioms Verif.Props.C51_comments_kept
#print axioms Verif.Props.C52_term_partial
#print axioms Verif.Props.C52_policy_partial
#print axioms Verif.Props.C52_refuted
#print axioms Verif.Props.C53_action_partial
#print axioms Verif.Props.C53_refuted
#print axioms Verif.Props.C54_list_partial
#print axioms Verif.Props.C54_text
#print axioms Verif.Props.C54_refuted
#print axioms Verif.Props.C55_protocols
#print axioms Verif.Props.C55_idempotent
#print axioms Verif.Props.C56_rerun_partial
#print axioms Verif.Props.C56_refuted
#print axioms Verif.Props.C57_platforms_partial
#print axioms Verif.Props.C57_name
#print axioms Verif.Props.C57_directory
#print axioms Verif.Props.C57_policies_partial
#print axioms Verif.Props.C57_refuted
#print axioms Verif.Props.C58_outputs_partial
#print axioms Verif.Props.C58_refuted
#print axioms Verif.Props.C58_pcap
#print axioms Verif.Props.C59_value_partial
#print axioms Verif.Props.C59_refuted
#print axioms Verif.Props.C60_filter_partial
#print axioms Verif.Props.C61_meaning_partial
#print axioms Verif.Props.C61_refuted_twice
#print axioms Verif.Props.C61_refuted_platform
#print axioms Verif.Props.C62_platform_partial
#print axioms Verif.Props.C62_refuted_objectgroup
#print axioms Verif.Props.C63_standard_partial
#print axioms Verif.Props.C40_refuted_standard
#print axioms Verif.Props.C64_list_partial
#print axioms Verif.Props.C64_entries_partial
#print axioms Verif.Props.C64_refuted_options
#print axioms Verif.Props.C64_refuted_platform
#print axioms Verif.Props.C64_refuted_inet6
#print axioms Verif.Props.C40_refuted_objectgroup
#print axioms Verif.Props.C41_refuted_shared
#print axioms Verif.Props.C41_refuted_undefined
#print axioms Verif.Props.C65_term_partial
#print axioms Verif.Props.C65_refuted_fragment
#print axioms Verif.Props.C65_refuted_length
#print axioms Verif.Props.C65_refuted_icmp_type
#print axioms Verif.Props.C65_refuted_established
#print axioms Verif.Props.C65_refuted_ttl
#print axioms Verif.Props.C65_refuted_hop_limit
#print axioms Verif.Props.C65_refuted_prefix
#print axioms Verif.Props.C65_refuted_counter
#print axioms Verif.Props.C66_filter_partial
#print axioms Verif.Props.C67_term_partial
#print axioms Verif.Props.C67_filter_partial
#print axioms Verif.Props.C67_refuted_icmp6
#print axioms Verif.Props.C67_refuted_both
#print axioms Verif.Props.C67_refuted_hopopt
#print axioms Verif.Props.C68_again_partial
#print axioms Verif.Props.C68_refuted_icmp6
#print axioms Verif.Props.C68_refuted_sample
#print axioms Verif.Props.C68_refuted_types
#print axioms Verif.Props.C69_term_partial
#print axioms Verif.Props.C69_refuted_exclude
#print axioms Verif.Props.C69_refuted_code
#print axioms Verif.Props.C69_refuted_none
#print axioms Verif.Props.C69_refuted_established
#print axioms Verif.Props.C69_refuted_hopopt
#print axioms Verif.Props.C69_refuted_icmp
#print axioms Verif.Props.C69_refuted_fragment
#print axioms Verif.Props.C69_refuted_leak
#print axioms Verif.Props.C69_refuted_family
#print axioms Verif.Props.C69_refuted_prefix
#print axioms Verif.Props.C69_refuted_tag
#print axioms Verif.Props.C69_refuted_limit
#print axioms Verif.Props.C70_partial
#print axioms Verif.Props.C70_chains
#print axioms Verif.Props.C70_refuted_collision
#print axioms Verif.Props.C70_refuted_name
#print axioms Verif.Props.C71_partial
#print axioms Verif.Props.C70_partial
#print axioms Verif.Props.C71_refuted_nostate
#print axioms Verif.Props.C71_refuted_default
#print axioms Verif.Props.C72_partial
#print axioms Verif.Props.C72_refuted_family
#print axioms Verif.Props.C72_refuted_platform
#print axioms Verif.Props.C72_refuted_restrict
#print axioms Verif.Props.C72_refuted_tag
#print axioms Verif.Props.C73_limits
#print axioms Verif.Props.C74_partial
#print axioms Verif.Props.C74_refuted_filters
#print axioms Verif.Props.C75_partial
#print axioms Verif.Props.C75_refuted_icmp
#print axioms Verif.Props.C75_refuted_zero
#print axioms Verif.Props.C75_refuted_family
#print axioms Verif.Props.C75_refuted_excluded
#print axioms Verif.Props.C75_refuted_overlap
#print axioms Verif.Props.C75_refuted_fragment
#print axioms Verif.Props.C75_refuted_options
#print axioms Verif.Props.C75_refuted_initial
#print axioms Verif.Props.C75_refuted_established
#print axioms Verif.Props.C75_refuted_restrict
#print axioms Verif.Props.C75_refuted_tag
#print axioms Verif.Props.C75_refuted_side
#print axioms Verif.Props.C75_refuted_order
#print axioms Verif.Props.C76_sequence
#print axioms Verif.Props.C77_partial
#print axioms Verif.Props.C77_refuted_exclude
#print axioms Verif.Props.C77_refuted_zero
#print axioms Verif.Props.C77_refuted_established
#print axioms Verif.Props.C77_refuted_restrict
#print axioms Verif.Props.C77_refuted_tag
#print axioms Verif.Props.C77_refuted_ports
#print axioms Verif.Props.C77_refuted_leak
#print axioms Verif.Props.C77_refuted_family
#print axioms Verif.Props.C77_refuted_ipip
#print axioms Verif.Props.C77_refuted_two
#print axioms Verif.Props.C78_numbers
#print axioms Verif.Props.C79_policy_partial
#print axioms Verif.Props.C79_refuted_order
#print axioms Verif.Props.C79_refuted_tags
#print axioms Verif.Props.C79_refuted_accounts
#print axioms Verif.Props.C79_refuted_exclude
#print axioms Verif.Props.C79_refuted_embedded
#print axioms Verif.Props.C79_refuted_icmpv6
#print axioms Verif.Props.C79_refuted_igmp
#print axioms Verif.Props.C79_refuted_restrict
#print axioms Verif.Props.C79_refuted_deny
#print axioms Verif.Props.C79_refuted_families
#print axioms Verif.Props.C80_limits
#print axioms Verif.Props.C80_quota
#print axioms Verif.Props.C81_names_partial
#print axioms Verif.Props.C81_refuted_parts
#print axioms Verif.Props.C81_refuted_filters
#print axioms Verif.Props.C81_refuted_mixed
#print axioms Verif.Props.C82_descriptions_partial
#print axioms Verif.Props.C82_refuted_owner
#print axioms Verif.Props.C82_refuted_twice
#print axioms Verif.Props.C83_policy_partial
#print axioms Verif.Props.C83_refuted_order
#print axioms Verif.Props.C83_refuted_empty
#print axioms Verif.Props.C83_refuted_expired
#print axioms Verif.Props.C83_refuted_tags
#print axioms Verif.Props.C83_refuted_family
#print axioms Verif.Props.C83_refuted_ports
#print axioms Verif.Props.C83_refuted_exclude
#print axioms Verif.Props.C83_refuted_names
#print axioms Verif.Props.C83_refuted_filters
#print axioms Verif.Props.C84_valid_partial
#print axioms Verif.Props.C84_refuted_name
#print axioms Verif.Props.C84_refuted_outside
#print axioms Verif.Props.C84_refuted_equal
#print axioms Verif.Props.C84_refuted_port
#print axioms Verif.Props.C84_refuted_number
#print axioms Verif.Props.C84_refuted_all
#print axioms Verif.Props.C85_names_partial
#print axioms Verif.Props.C85_refuted_filters
#print axioms Verif.Props.C85_refuted_directions
#print axioms Verif.Props.C86_own
#print axioms Verif.Props.C87_chain_partial
#print axioms Verif.Props.C87_policy_partial
#print axioms Verif.Props.C87_refuted_ports
#print axioms Verif.Props.C87_refuted_interface
#print axioms Verif.Props.C87_refuted_excluded
#print axioms Verif.Props.C87_refuted_exclusion
#print axioms Verif.Props.C87_refuted_both
#print axioms Verif.Props.C87_refuted_half
#print axioms Verif.Props.C87_refuted_deny
#print axioms Verif.Props.C87_refuted_ipip
#print axioms Verif.Props.C87_refuted_family
#print axioms Verif.Props.C87_refuted_tag
#print axioms Verif.Props.C87_refuted_names
#print axioms Verif.Props.C87_refuted_base
#print axioms Verif.Props.C88_known_partial
#print axioms Verif.Props.C88_invalid
#print axioms Verif.Props.C88_refuted_names
#print axioms Verif.Props.C88_refuted_icmp
#print axioms Verif.Props.C89_chains_partial
#print axioms Verif.Props.C89_jumps
#print axioms Verif.Props.C89_refuted_names
#print axioms Verif.Props.C90_comments
#print axioms Verif.Props.C90_refuted_header
#print axioms Verif.Props.C91_log
#print axioms Verif.Props.C92_policy_partial
#print axioms Verif.Props.C92_refuted_exclude
#print axioms Verif.Props.C92_refuted_tokens
#print axioms Verif.Props.C92_refuted_deny
#print axioms Verif.Props.C92_refuted_direction
#print axioms Verif.Props.C92_refuted_established
#print axioms Verif.Props.C92_refuted_family
#print axioms Verif.Props.C92_refuted_ipip
#print axioms Verif.Props.C92_refuted_verbatim
#print axioms Verif.Props.C93_tables
#print axioms Verif.Props.C93_defined_partial
#print axioms Verif.Props.C93_refuted
#print axioms Verif.Props.C94_state_partial
#print axioms Verif.Props.C94_refuted
#print axioms Verif.Props.C95_log_partial
#print axioms Verif.Props.C95_names
#print axioms Verif.Props.C95_refuted
#print axioms Verif.Props.C96_policy_partial
#print axioms Verif.Props.C96_refuted_nothing
#print axioms Verif.Props.C96_refuted_naked
#print axioms Verif.Props.C96_refuted_shared
#print axioms Verif.Props.C96_refuted_tokens
#print axioms Verif.Props.C96_refuted_families
#print axioms Verif.Props.C96_refuted_inet
#print axioms Verif.Props.C96_refuted_options
#print axioms Verif.Props.C96_refuted_restricted
#print axioms Verif.Props.C96_refuted_names
#print axioms Verif.Props.C97_books
#print axioms Verif.Props.C97_referred
#print axioms Verif.Props.C97_refuted_names
#print axioms Verif.Props.C98_names
#print axioms Verif.Props.C98_referred
#print axioms Verif.Props.C98_admits_partial
#print axioms Verif.Props.C98_policies
#print axioms Verif.Props.C99_balanced_partial
#print axioms Verif.Props.C99_refuted_eight
#print axioms Verif.Props.C99_refuted_actions
#print axioms Verif.Props.C99_refuted_verbatim
