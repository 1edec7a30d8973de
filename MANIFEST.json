{
 "claims": [
  {
   "property": "C01",
   "status": "proved",
   "theorems": [
    "Verif.Props.C01_collapse_denotation",
    "Verif.Props.C01_collapse_total",
    "Verif.Props.C01_collapse_total_one_family",
    "Verif.Props.C01_not_total_mixed"
   ],
   "note": "Denotation preserved for every return value and every complement list. Returns always without complements, and with complements when the input is of one family; C01_not_total_mixed shows the TypeError the code raises on mixed families with complements."
  },
  {
   "property": "C02",
   "status": "proved",
   "theorems": [
    "Verif.Props.C02_canonical",
    "Verif.Props.C02_order_independent",
    "Verif.Props.C02_idempotent"
   ],
   "note": ""
  },
  {
   "property": "C03",
   "status": "proved",
   "theorems": [
    "Verif.Props.C03_minimal"
   ],
   "note": ""
  },
  {
   "property": "C04",
   "status": "partial",
   "theorems": [
    "Verif.Props.C04_lpm_preserved_partial",
    "Verif.Props.C04_refuted_siblings",
    "Verif.Props.C04_refuted_nested"
   ],
   "note": "The full claim is false of the code: the complement lookup only finds complements with the same network address and the sibling merge ignores them. Proved when every exclude strictly containing an include starts at the include's address; two refutations."
  },
  {
   "property": "C05",
   "status": "proved",
   "theorems": [
    "Verif.Props.C05_preserve_tokens"
   ],
   "note": ""
  },
  {
   "property": "C06",
   "status": "proved",
   "theorems": [
    "Verif.Props.C06_remove_address"
   ],
   "note": ""
  },
  {
   "property": "C07",
   "status": "proved",
   "theorems": [
    "Verif.Props.C07_exclude_raises",
    "Verif.Props.C07_exclude_partition"
   ],
   "note": ""
  },
  {
   "property": "C08",
   "status": "proved",
   "theorems": [
    "Verif.Props.C08_address_list_exclude"
   ],
   "note": ""
  },
  {
   "property": "C09",
   "status": "partial",
   "theorems": [
    "Verif.Props.C09_exclude_no_collapse_partial",
    "Verif.Props.C09_refuted_overlap",
    "Verif.Props.C09_refuted_mixed"
   ],
   "note": "False for overlapping superset members (excluded addresses survive) and for mixed families (TypeError); proved for disjoint one-family supersets."
  },
  {
   "property": "C10",
   "status": "proved",
   "theorems": [
    "Verif.Props.C10_supernet_sound",
    "Verif.Props.C10_supernet_exact",
    "Verif.Props.C10_incomplete_uncollapsed"
   ],
   "note": "CheckAddressIsContained is added with the policy model."
  },
  {
   "property": "C100",
   "status": "partial",
   "theorems": [
    "Verif.Props.C100_decides",
    "Verif.Props.C100_size_partial",
    "Verif.Props.C100_refuted_size",
    "Verif.Props.C100_refuted_tokens"
   ],
   "note": "What is decided stays the same without conditions; the limit is proved for 1030 instead of 1023, which may be exceeded; tokens of parts of different terms may coincide."
  },
  {
   "property": "C101",
   "status": "partial",
   "theorems": [
    "Verif.Props.C101_then_partial",
    "Verif.Props.C101_refuted_expresspath",
    "Verif.Props.C101_refuted_disable"
   ],
   "note": "Tunnel and logs are proved without expresspath; with it both are wrong. Logging is proved for what the tool takes as logging; disable turns it on."
  },
  {
   "property": "C102",
   "status": "proved",
   "theorems": [
    "Verif.Props.C102_tokens",
    "Verif.Props.C102_layout",
    "Verif.Props.C102_files"
   ],
   "note": "readPolicy is lexer, parser, term building and translation; C102_files adds include expansion."
  },
  {
   "property": "C103",
   "status": "partial",
   "theorems": [
    "Verif.Props.C103_grammar",
    "Verif.Props.C103_unique",
    "Verif.Props.C103_refuted_false",
    "Verif.Props.C103_refuted_attribute"
   ],
   "note": "Acceptance is characterised exactly. The claim about ParseError is false: an empty flexible-match-range or a trailing comma in target-resources makes ParsePolicy return False, and an empty policy or empty term raises AttributeError."
  },
  {
   "property": "C104",
   "status": "partial",
   "theorems": [
    "Verif.Props.C104_says",
    "Verif.Props.C104_values",
    "Verif.Props.C104_term",
    "Verif.Props.C104_order",
    "Verif.Props.C104_refuted_repeated"
   ],
   "note": "False for repeated keywords with one value, of which only the last counts; the theorems say exactly what a term holds for all items."
  },
  {
   "property": "C105",
   "status": "partial",
   "theorems": [
    "Verif.Props.C105_reads",
    "Verif.Props.C105_complete_partial",
    "Verif.Props.C105_refuted_illegal"
   ],
   "note": "False: illegal characters are printed and skipped. Proved for texts without them; C105_reads accounts for every character of every text."
  },
  {
   "property": "C106",
   "status": "partial",
   "theorems": [
    "Verif.Props.C106_verbatim_partial",
    "Verif.Props.C106_written",
    "Verif.Props.C106_refuted_quote"
   ],
   "note": "Missing: texts with a backslash; false for texts that end with a quote."
  },
  {
   "property": "C107",
   "status": "partial",
   "theorems": [
    "Verif.Props.C107_names_partial",
    "Verif.Props.C107_refuted_names"
   ],
   "note": "False for reserved words, hex and names that start with a DSCP class followed by one of +.@/ (or a class range); proved for all others."
  },
  {
   "property": "C108",
   "status": "partial",
   "theorems": [
    "Verif.Props.C108_partial",
    "Verif.Props.C108_refuted_noports",
    "Verif.Props.C108_refuted_protocols",
    "Verif.Props.C108_refuted_order",
    "Verif.Props.C108_refuted_user",
    "Verif.Props.C108_refuted_platform",
    "Verif.Props.C108_refuted_exclude",
    "Verif.Props.C108_refuted_restrict",
    "Verif.Props.C108_refuted_case",
    "Verif.Props.C108_refuted_header"
   ],
   "note": "Proved for filters of any number and length whose terms have supported keywords and distinct names up to case, with ports printed low end first; refuted for tcp/udp without ports, several protocols with icmp/gre/esp, ranges whose set order is reversed, addresses next to *-is-user, terms and headers of other platforms, restricted families, names equal up to case."
  },
  {
   "property": "C109",
   "status": "partial",
   "theorems": [
    "Verif.Props.C109_refuted_never",
    "Verif.Props.C109_refuted_ports",
    "Verif.Props.C109_refuted_exclude",
    "Verif.Props.C109_refuted_reject"
   ],
   "note": "False of the code: the class does not set its platform, so the keyword check never looks at a term; proved that it refuses nothing, with witnesses whose ignored keyword changes the decision."
  },
  {
   "property": "C11",
   "status": "proved",
   "theorems": [
    "Verif.Props.C11_summarize_exact"
   ],
   "note": "for every list of well-formed networks of one family and every address, matching a summary is equivalent to belonging to an input network"
  },
  {
   "property": "C110",
   "status": "partial",
   "theorems": [
    "Verif.Props.C110_defined",
    "Verif.Props.C110_once_partial",
    "Verif.Props.C110_refuted_case",
    "Verif.Props.C110_refuted_filters"
   ],
   "note": "Definedness is proved for every policy; uniqueness for names that differ up to case within a family, refuted otherwise."
  },
  {
   "property": "C111",
   "status": "partial",
   "theorems": [
    "Verif.Props.C111_partial",
    "Verif.Props.C111_refuted_side",
    "Verif.Props.C111_refuted_lists",
    "Verif.Props.C111_refuted_both",
    "Verif.Props.C111_refuted_ports",
    "Verif.Props.C111_refuted_restrict",
    "Verif.Props.C111_refuted_embedded",
    "Verif.Props.C111_refuted_icmpv6",
    "Verif.Props.C111_refuted_other",
    "Verif.Props.C111_refuted_ipip",
    "Verif.Props.C111_refuted_families"
   ],
   "note": "proved for policies whose terms use the side their direction looks at; false otherwise and for ports without protocols, restricted families, embedded IPv4 addresses, threat lists next to addresses or in filters of another family, ipip, and headers with two families"
  },
  {
   "property": "C112",
   "status": "partial",
   "theorems": [
    "Verif.Props.C112_partial",
    "Verif.Props.C112_refuted"
   ],
   "note": "proved unless a beta filter has terms with threat lists, which are not counted there"
  },
  {
   "property": "C113",
   "status": "proved",
   "theorems": [
    "Verif.Props.C113_limits"
   ],
   "note": ""
  },
  {
   "property": "C114",
   "status": "partial",
   "theorems": [
    "Verif.Props.C114_ga_partial",
    "Verif.Props.C114_beta_partial",
    "Verif.Props.C114_refuted"
   ],
   "note": "proved for policies of one version; with headers of both versions the policy gets two names"
  },
  {
   "property": "C115",
   "status": "partial",
   "theorems": [
    "Verif.Props.C115_partial",
    "Verif.Props.C115_refuted_established",
    "Verif.Props.C115_refuted_exclude",
    "Verif.Props.C115_refuted_icmpv6",
    "Verif.Props.C115_refuted_protocol",
    "Verif.Props.C115_refuted_family",
    "Verif.Props.C115_refuted_ports",
    "Verif.Props.C115_refuted_twice"
   ],
   "note": "proved for filters whose name no later filter has and terms within AsaFits; false for the options established and tcp-established (never rendered), exclusions without addresses, icmpv6 next to other protocols, protocols without a name on the device, terms restricted to IPv6, ports without protocols, and names used twice"
  },
  {
   "property": "C116",
   "status": "partial",
   "theorems": [
    "Verif.Props.C116_partial",
    "Verif.Props.C116_refuted_icmpv6",
    "Verif.Props.C116_refuted_next",
    "Verif.Props.C116_refuted_protocol",
    "Verif.Props.C116_refuted_none"
   ],
   "note": "proved for policies all of whose filters are for the platform with terms within AsaFits and without next; false for icmpv6, next, unknown protocols, and filters for other platforms, which are rendered as list None"
  },
  {
   "property": "C117",
   "status": "partial",
   "theorems": [
    "Verif.Props.C117_partial",
    "Verif.Props.C117_refuted_more",
    "Verif.Props.C117_refuted_after"
   ],
   "note": "proved for terms with at most one verbatim text; false for more, since the loop returns in its first round"
  },
  {
   "property": "C118",
   "status": "partial",
   "theorems": [
    "Verif.Props.C118_partial",
    "Verif.Props.C118_refuted_version",
    "Verif.Props.C118_refuted_option",
    "Verif.Props.C118_refuted_replies",
    "Verif.Props.C118_refuted_protocol",
    "Verif.Props.C118_refuted_ports",
    "Verif.Props.C118_refuted_icmp",
    "Verif.Props.C118_refuted_any",
    "Verif.Props.C118_refuted_family"
   ],
   "note": "Proved where all filters of the direction are for the version of the packet, for terms that fit and terms for replies about packets that open connections. Refuted for: packets of the other version, other options, terms for replies, protocols without a name, ports without protocols, icmp of the other version next to other protocols, ::/0 in IPv4 filters, restrict-address-family."
  },
  {
   "property": "C119",
   "status": "partial",
   "theorems": [
    "Verif.Props.C119_partial",
    "Verif.Props.C119_refuted"
   ],
   "note": "Proved as C118 where no term denies what an earlier one accepts. Refuted for policies that end with a term that denies the rest: Windows lets blocking rules win."
  },
  {
   "property": "C12",
   "status": "partial",
   "theorems": [
    "Verif.Props.C12_rendering_partial",
    "Verif.Props.C12_refuted"
   ],
   "note": "proved when all inputs lie in one half of the IPv4 space; refuted in general: 1.0.0.0/8 and 129.0.0.0/8 merge over the top bit and ToDottedQuad raises ValueError"
  },
  {
   "property": "C120",
   "status": "partial",
   "theorems": [
    "Verif.Props.C120_partial",
    "Verif.Props.C120_refuted_ranges",
    "Verif.Props.C120_refuted_zero",
    "Verif.Props.C120_refuted_shared",
    "Verif.Props.C120_refuted_protocol",
    "Verif.Props.C120_refuted_ports",
    "Verif.Props.C120_refuted_option",
    "Verif.Props.C120_refuted_family",
    "Verif.Props.C120_refuted_icmpv6"
   ],
   "note": "Proved for at most one range of ports per side without port 0, protocols with names, and lists that no other term uses. Refuted for: several ranges, port 0, shared names, other protocols, ports without protocols, options, restrict-address-family, icmpv6 next to other protocols."
  },
  {
   "property": "C121",
   "status": "partial",
   "theorems": [
    "Verif.Props.C121_partial",
    "Verif.Props.C121_refuted_policy",
    "Verif.Props.C121_refuted_twice"
   ],
   "note": "Proved for lists and actions, their order and the rules of the terms. Refuted for every policy: rules refer to a policy that is not created, unless a filter name ends in -policy, and lists and actions are created twice."
  },
  {
   "property": "C122",
   "status": "partial",
   "theorems": [
    "Verif.Props.C122_partial",
    "Verif.Props.C122_refuted_deny",
    "Verif.Props.C122_refuted_option",
    "Verif.Props.C122_refuted_established",
    "Verif.Props.C122_refuted_icmp",
    "Verif.Props.C122_refuted_port",
    "Verif.Props.C122_refuted_length",
    "Verif.Props.C122_refuted_fragment",
    "Verif.Props.C122_refuted_exclude",
    "Verif.Props.C122_refuted_around",
    "Verif.Props.C122_refuted_default",
    "Verif.Props.C122_refuted_shared",
    "Verif.Props.C122_refuted_renamed",
    "Verif.Props.C122_refuted_removed"
   ],
   "note": "Proved for terms rendered faithfully (AtpFits), for names of terms that keep clear of each other and of the names the tool makes up (AtpNames), filters of a policy not next to those of others (OnePolicyEach) and default terms last; without these it is false, as the counterexamples show."
  },
  {
   "property": "C123",
   "status": "partial",
   "theorems": [
    "Verif.Props.C123_partial",
    "Verif.Props.C123_refuted_excluded",
    "Verif.Props.C123_refuted_renamed"
   ],
   "note": "Proved for AtpNames and terms whose excluded addresses leave some of the included ones; false if all are excluded, and if the name of a term begins with that of another whose field set is merged."
  },
  {
   "property": "C124",
   "status": "partial",
   "theorems": [
    "Verif.Props.C124_partial",
    "Verif.Props.C124_refuted_renamed"
   ],
   "note": "Proved for names of terms and counters without the texts the tool substitutes; false for a counter called like a field set."
  },
  {
   "property": "C125",
   "status": "proved",
   "theorems": [
    "Verif.Props.C125_replaces"
   ],
   "note": ""
  },
  {
   "property": "C126",
   "status": "partial",
   "theorems": [
    "Verif.Props.C126_partial",
    "Verif.Props.C122_refuted_removed"
   ],
   "note": "Proved if all filters name one policy, or each a different one; otherwise a later filter removes what an earlier one added (C122_refuted_removed)."
  },
  {
   "property": "C127",
   "status": "partial",
   "theorems": [
    "Verif.Props.C127_partial",
    "Verif.Props.C127_refuted_version",
    "Verif.Props.C127_refuted_excluded",
    "Verif.Props.C127_refuted_exclude",
    "Verif.Props.C127_refuted_zero",
    "Verif.Props.C127_refuted_icmp",
    "Verif.Props.C127_refuted_icmpv6",
    "Verif.Props.C127_refuted_ports",
    "Verif.Props.C127_refuted_established",
    "Verif.Props.C127_refuted_family"
   ],
   "note": "Holds if each term has an address left for the families of the header, exclusions come with addresses, ports and types with a protocol of their own family, type 0 of icmp is not used and options only let terms out that do not match. False otherwise: the refutations give a policy for each condition."
  },
  {
   "property": "C128",
   "status": "partial",
   "theorems": [
    "Verif.Props.C128_partial",
    "Verif.Props.C128_refuted_protocol",
    "Verif.Props.C128_refuted_zero",
    "Verif.Props.C128_refuted_mixed",
    "Verif.Props.C128_refuted_any",
    "Verif.Props.C128_refuted_excluded",
    "Verif.Props.C128_refuted_ports"
   ],
   "note": "Holds for packets neither from nor to 0.0.0.0 if each term uses tcp, udp, icmp and icmpv6 only, has an address other than 0 left, and all of IPv4 is not given in a mixed filter. False otherwise: the refutations give a policy for each condition."
  },
  {
   "property": "C129",
   "status": "partial",
   "theorems": [
    "Verif.Props.C129_sources",
    "Verif.Props.C129_destinations_partial",
    "Verif.Props.C129_refuted"
   ],
   "note": "Holds for sources. For destinations it holds if the term excludes destinations, or none begins with 0.0.0.0 or all of IPv4 is given, or the term also has a source; false for a destination such as 0.0.0.0/8 alone."
  },
  {
   "property": "C13",
   "status": "partial",
   "theorems": [
    "Verif.Props.C13_ports_denotation",
    "Verif.Props.C13_minimal_partial",
    "Verif.Props.C13_refuted"
   ],
   "note": "denotation and order proved for all lists; minimality proved unless a range starts at another's last port and extends it; refuted there (10-20,20-30)"
  },
  {
   "property": "C130",
   "status": "partial",
   "theorems": [
    "Verif.Props.C130_nsxv_partial",
    "Verif.Props.C130_nsxt_partial",
    "Verif.Props.C130_refuted_two",
    "Verif.Props.C130_refuted_together",
    "Verif.Props.C130_refuted_comment"
   ],
   "note": "Holds for one header per platform, short names and, for NSX-V, comments without markup. False for two headers, and for comments with an ampersand."
  },
  {
   "property": "C131",
   "status": "proved",
   "theorems": [
    "Verif.Props.C131_section",
    "Verif.Props.C131_policy"
   ],
   "note": ""
  },
  {
   "property": "C132",
   "status": "partial",
   "theorems": [
    "Verif.Props.C132_partial",
    "Verif.Props.C132_refuted_families",
    "Verif.Props.C132_refuted_split",
    "Verif.Props.C132_refuted_shared",
    "Verif.Props.C132_refuted_zones",
    "Verif.Props.C132_refuted_excluded",
    "Verif.Props.C132_refuted_exclude",
    "Verif.Props.C132_refuted_ports",
    "Verif.Props.C132_refuted_sctp",
    "Verif.Props.C132_refuted_icmpv6",
    "Verif.Props.C132_refuted_names"
   ],
   "note": "Proved for all lists of filters if a token stands for the same addresses wherever it is used and exclusions take away whole networks, and if live terms have protocols the device knows, no protocol of the other version, ports only with tcp and udp, and names whose rules do not collide. Each refutation is a policy that the tool accepts."
  },
  {
   "property": "C133",
   "status": "partial",
   "theorems": [
    "Verif.Props.C133_members",
    "Verif.Props.C133_services",
    "Verif.Props.C133_apps",
    "Verif.Props.C133_any",
    "Verif.Props.C133_partial",
    "Verif.Props.C133_refuted",
    "Verif.Props.C133_refuted_keyError"
   ],
   "note": "Proved without conditions for members of groups, services, applications and the object for all IPv4 addresses. For groups it is false if a token has no address of the version of the filter; proved if every token has one and exclusions take away whole networks."
  },
  {
   "property": "C134",
   "status": "partial",
   "theorems": [
    "Verif.Props.C134",
    "Verif.Props.C134_rules_partial",
    "Verif.Props.C134_refuted",
    "Verif.Props.C134_refuted_prefix"
   ],
   "note": "Proved without conditions except for rules: two filters may have terms of the same name, and the prefixes made of the zones do not always tell filters apart. Proved for rules without prefixes if terms have unlike names across all filters."
  },
  {
   "property": "C135",
   "status": "proved",
   "theorems": [
    "Verif.Props.C135"
   ],
   "note": ""
  },
  {
   "property": "C136",
   "status": "proved",
   "theorems": [
    "Verif.Props.C136"
   ],
   "note": ""
  },
  {
   "property": "C137",
   "status": "partial",
   "theorems": [
    "Verif.Props.C137_policy_partial",
    "Verif.Props.C137_refuted_priority",
    "Verif.Props.C137_refuted_tags",
    "Verif.Props.C137_refuted_accounts",
    "Verif.Props.C137_refuted_family",
    "Verif.Props.C137_refuted_exclude",
    "Verif.Props.C137_refuted_embedded",
    "Verif.Props.C137_refuted_icmpv6",
    "Verif.Props.C137_refuted_igmp",
    "Verif.Props.C137_refuted_restrict",
    "Verif.Props.C137_refuted_deny",
    "Verif.Props.C137_refuted_network"
   ],
   "note": "Proved for every policy, flow and number of filters whose terms are rendered faithfully, without any condition on priorities of terms with addresses. Refuted for the other terms the tool accepts: stated priorities without addresses, sources and tags or accounts together, tags in one family only, excluded destinations in ingress, IPv6 networks standing for IPv4, ICMPv6 from tags in mixed filters, IGMP over IPv6, restrict-address-family, a deny of everything in the midst, no network."
  },
  {
   "property": "C138",
   "status": "partial",
   "theorems": [
    "Verif.Props.C138_sizes_partial",
    "Verif.Props.C138_quota",
    "Verif.Props.C138_refuted_description",
    "Verif.Props.C138_refuted_tag"
   ],
   "note": "Sizes and quota proved for every policy. Refuted: the length of descriptions and the emptiness of tags are not checked."
  },
  {
   "property": "C139",
   "status": "partial",
   "theorems": [
    "Verif.Props.C139_names_partial",
    "Verif.Props.C139_refuted_parts",
    "Verif.Props.C139_refuted_filters",
    "Verif.Props.C139_refuted_mixed"
   ],
   "note": "Proved for one filter of one family in which no term is named like a numbered part of another. Refuted for parts, for the same term name in filters for both families, and for mixed filters."
  },
  {
   "property": "C14",
   "status": "proved",
   "theorems": [
    "Verif.Props.C14_port_contained_sound",
    "Verif.Props.C14_port_contained_exact",
    "Verif.Props.C14_empty_superset"
   ],
   "note": ""
  },
  {
   "property": "C140",
   "status": "partial",
   "theorems": [
    "Verif.Props.C140_numbered_partial",
    "Verif.Props.C140_refuted_stated",
    "Verif.Props.C140_refuted_same"
   ],
   "note": "Proved: the i-th rule has priority i, if no term without addresses states a priority. Refuted: stated priorities of terms with addresses are ignored, those of other terms can coincide with the numbering."
  },
  {
   "property": "C141",
   "status": "partial",
   "theorems": [
    "Verif.Props.C141_descriptions_partial",
    "Verif.Props.C141_refuted_owner",
    "Verif.Props.C141_refuted_twice"
   ],
   "note": "Proved for one filter of one family whose terms have comments. Refuted for terms without comments and for mixed filters, in which the line of the owner is added to a shared list."
  },
  {
   "property": "C142",
   "status": "partial",
   "theorems": [
    "Verif.Props.C142_sound",
    "Verif.Props.C142_exact_partial",
    "Verif.Props.C142_refuted",
    "Verif.Props.C142_refuted_service",
    "Verif.Props.C142_service_partial"
   ],
   "note": "A yes is always right (C142_sound) and the answer is exact if the second token's networks have no two halves of one network; the full statement is false: two halves do not encapsulate the whole (C142_refuted) and two service tokens with ports raise AttributeError (C142_refuted_service). Other answers about services are right (C142_service_partial)."
  },
  {
   "property": "C143",
   "status": "partial",
   "theorems": [
    "Verif.Props.C143_partial",
    "Verif.Props.C143_undefined",
    "Verif.Props.C143_refuted_first",
    "Verif.Props.C143_refuted_letter"
   ],
   "note": "Only the last address is reported on (C143_refuted_first) and addresses starting with a letter are never found (C143_refuted_letter), so the full statement is false."
  },
  {
   "property": "C144",
   "status": "partial",
   "theorems": [
    "Verif.Props.C144_partial"
   ],
   "note": "For definitions that can be searched (acyclic, fully defined, names starting with a letter) and addresses that start with a digit."
  },
  {
   "property": "C145",
   "status": "partial",
   "theorems": [
    "Verif.Props.C145_partial"
   ],
   "note": "Under the conditions of C144."
  },
  {
   "property": "C146",
   "status": "partial",
   "theorems": [
    "Verif.Props.C146_union",
    "Verif.Props.C146_refuted"
   ],
   "note": "The union is exact; the difference is always the whole union (C146_refuted), so that half is false."
  },
  {
   "property": "C147",
   "status": "partial",
   "theorems": [
    "Verif.Props.C147_partial"
   ],
   "note": "Under the conditions of C26 on the service definitions."
  },
  {
   "property": "C148",
   "status": "partial",
   "theorems": [
    "Verif.Props.C148_undefined",
    "Verif.Props.C148_refuted",
    "Verif.Props.C148_services_partial",
    "Verif.Props.C148_services_undefined"
   ],
   "note": "Services are exact for acyclic services, and reported if something is undefined; listing networks always dies with AttributeError (C148_refuted)."
  },
  {
   "property": "C149",
   "status": "partial",
   "theorems": [
    "Verif.Props.C149_reads_partial",
    "Verif.Props.C149_refuted_same",
    "Verif.Props.C149_refuted_comment",
    "Verif.Props.C149_refuted_string"
   ],
   "note": "Exact for files whose braces and attributes are words, whose headers name one filter each and always another one than before; the full statement is false for filters of the same name, comments at the end of lines and the last line of a quoted text."
  },
  {
   "property": "C15",
   "status": "partial",
   "theorems": [
    "Verif.Props.C15_contains_sound_partial",
    "Verif.Props.C15_refuted_protocol",
    "Verif.Props.C15_refuted_protocol_except",
    "Verif.Props.C15_refuted_exclude",
    "Verif.Props.C15_refuted_full_exclude",
    "Verif.Props.C15_refuted_option",
    "Verif.Props.C15_refuted_packet_length",
    "Verif.Props.C15_refuted_hop_limit",
    "Verif.Props.C15_refuted_unchecked"
   ],
   "note": "sound on the Checkable fragment; refuted outside it with eight kinds of witnesses"
  },
  {
   "property": "C150",
   "status": "partial",
   "theorems": [
    "Verif.Props.C150_matches_partial",
    "Verif.Props.C150_named_partial",
    "Verif.Props.C150_invalid",
    "Verif.Props.C150_refuted_unknown",
    "Verif.Props.C150_refuted_reserved",
    "Verif.Props.C150_refuted_range",
    "Verif.Props.C150_refuted_left_out",
    "Verif.Props.C150_refuted_number"
   ],
   "note": "Exact in terms of tokens for things that some token contains; the full statement is false: things in no token match every term, RESERVED may count, ranges are not searched, terms that leave an attribute out are not found and a named filter is always number 0."
  },
  {
   "property": "C151",
   "status": "proved",
   "theorems": [
    "Verif.Props.C151_rules"
   ],
   "note": "For every policy that is accepted; large terms are cut into parts that match the same packets, each part gives at most one rule. Services are those of the term by number or none, see C153 and C155."
  },
  {
   "property": "C152",
   "status": "partial",
   "theorems": [
    "Verif.Props.C152_partial",
    "Verif.Props.C152_refuted"
   ],
   "note": "Proved for policies with one filter of the platform. Refuted for two: addresses are numbered from 0 in each filter, so that a name is defined twice."
  },
  {
   "property": "C153",
   "status": "partial",
   "theorems": [
    "Verif.Props.C153_partial",
    "Verif.Props.C153_refuted",
    "Verif.Props.C153_refuted_empty"
   ],
   "note": "Refuted for every policy in which two rules have services, and for every policy without addresses that has some. Proved for one filter in which one term at most needs services and addresses are there."
  },
  {
   "property": "C154",
   "status": "partial",
   "theorems": [
    "Verif.Props.C154_partial",
    "Verif.Props.C154_refuted_exclude",
    "Verif.Props.C154_refuted_zone",
    "Verif.Props.C154_refuted_same",
    "Verif.Props.C154_refuted_two",
    "Verif.Props.C154_refuted_bare",
    "Verif.Props.C154_refuted_option"
   ],
   "note": "Proved for one filter in which one term at most needs services; without exclusions, options and addresses next to the zone all, which are refuted."
  },
  {
   "property": "C155",
   "status": "partial",
   "theorems": [
    "Verif.Props.C155_partial",
    "Verif.Props.C155_refuted"
   ],
   "note": "The parts together want what the terms want. Refuted for terms with services: all parts but the first refer to none."
  },
  {
   "property": "C156",
   "status": "proved",
   "theorems": [
    "Verif.Props.C156_section",
    "Verif.Props.C156_policy"
   ],
   "note": "For every policy that is rendered. The names of icmp types in services are among those of the term."
  },
  {
   "property": "C157",
   "status": "partial",
   "theorems": [
    "Verif.Props.C157_partial",
    "Verif.Props.C157_refuted_exclude",
    "Verif.Props.C157_refuted_nested",
    "Verif.Props.C157_refuted_option",
    "Verif.Props.C157_refuted_sctp",
    "Verif.Props.C157_refuted_zero",
    "Verif.Props.C157_refuted_icmp",
    "Verif.Props.C157_refuted_restrict"
   ],
   "note": "For filters of different names whose terms have one action, no options, exclusions inside of addresses only, and ports with TCP and UDP only; each condition is shown to be needed."
  },
  {
   "property": "C158",
   "status": "partial",
   "theorems": [
    "Verif.Props.C158_partial",
    "Verif.Props.C158_refuted_names",
    "Verif.Props.C158_refuted_ports",
    "Verif.Props.C158_refuted_groups"
   ],
   "note": "For filters of different names and ports with protocols; both conditions are needed. Names of applications of different groups may clash."
  },
  {
   "property": "C159",
   "status": "proved",
   "theorems": [
    "Verif.Props.C159_rules"
   ],
   "note": ""
  },
  {
   "property": "C16",
   "status": "proved",
   "theorems": [
    "Verif.Props.C16_shading_error_iff",
    "Verif.Props.C16_shading_ok",
    "Verif.Props.C16_delete_covered",
    "Verif.Props.C16_delete_reported_partial"
   ],
   "note": "for term lists all of whose ordered pairs can be compared without an exception (mixed-family excludes raise TypeError)"
  },
  {
   "property": "C160",
   "status": "partial",
   "theorems": [
    "Verif.Props.C160_needed",
    "Verif.Props.C160_enough",
    "Verif.Props.C160_refuted_action",
    "Verif.Props.C160_refuted_long"
   ],
   "note": "The conditions are necessary; for names of terms of at most 27 characters they are sufficient. Longer names may be confused, and two actions of the keyword tables are refused by a TypeError."
  },
  {
   "property": "C161",
   "status": "partial",
   "theorems": [
    "Verif.Props.C161_partial",
    "Verif.Props.C161_refuted"
   ],
   "note": "Unless a term is called like another with the suffix of a family."
  },
  {
   "property": "C162",
   "status": "proved",
   "theorems": [
    "Verif.Props.C162_read",
    "Verif.Props.C162_brace"
   ],
   "note": ""
  },
  {
   "property": "C163",
   "status": "partial",
   "theorems": [
    "Verif.Props.C163_again_partial",
    "Verif.Props.C163_less_partial",
    "Verif.Props.C163_refuted_names",
    "Verif.Props.C163_refuted_include"
   ],
   "note": "False in full: NamingField.ValueStr drops the name at which a line of names ends, and Include.__str__ prints no line break. Without includes the policy is read again just if the names of each field fit on one line; otherwise only names are lost."
  },
  {
   "property": "C164",
   "status": "partial",
   "theorems": [
    "Verif.Props.C164_verbatim_partial",
    "Verif.Props.C164_refuted"
   ],
   "note": "False in full: Describe raises for each term without verbatim fields, since fields define __eq__ without __hash__ and are put into a set."
  },
  {
   "property": "C165",
   "status": "proved",
   "theorems": [
    "Verif.Props.C165_fields",
    "Verif.Props.C165_members",
    "Verif.Props.C165_both"
   ],
   "note": ""
  },
  {
   "property": "C166",
   "status": "partial",
   "theorems": [
    "Verif.Props.C166_filter_partial",
    "Verif.Props.C166_refuted"
   ],
   "note": "Holds for the terms Juniper renders faithfully (JFits) in filters of one family, for every packet, except that on the ingress of physical interfaces a term naming an extension header is only right for packets without extension headers; refuted there."
  },
  {
   "property": "C167",
   "status": "partial",
   "theorems": [
    "Verif.Props.C167_other_partial",
    "Verif.Props.C167_physical_partial",
    "Verif.Props.C167_refuted_route",
    "Verif.Props.C167_refuted_mixed"
   ],
   "note": "Holds without the routing header and, on the ingress of physical interfaces, for lists of extension headers only or of none; refuted for the routing header and mixed lists."
  },
  {
   "property": "C168",
   "status": "proved",
   "theorems": [
    "Verif.Props.C168_direction",
    "Verif.Props.C168_others"
   ],
   "note": ""
  },
  {
   "property": "C169",
   "status": "proved",
   "theorems": [
    "Verif.Props.C169_keywords"
   ],
   "note": ""
  },
  {
   "property": "C17",
   "status": "partial",
   "theorems": [
    "Verif.Props.C17_shading_preserves_partial",
    "Verif.Props.C17_refuted"
   ],
   "note": "holds unless an include list is completely excluded; refuted there (empty list means any)"
  },
  {
   "property": "C170",
   "status": "partial",
   "theorems": [
    "Verif.Props.C170_msmpc_partial",
    "Verif.Props.C170_srx",
    "Verif.Props.C170_refuted_zero"
   ],
   "note": "Proved for SRX without conditions and for MS-MPC with filters of different names, except that a timeout of 0 of a term with ICMP types is not printed (refuted)."
  },
  {
   "property": "C171",
   "status": "partial",
   "theorems": [
    "Verif.Props.C171_hidden",
    "Verif.Props.C171_accepted_partial",
    "Verif.Props.C171_refuted_brace"
   ],
   "note": "hidden from the device and shown in full for every text; accepted without effect on the indentation if the text has no braces; refuted otherwise: a piece that ends with a brace makes the whole filter fail"
  },
  {
   "property": "C172",
   "status": "partial",
   "theorems": [
    "Verif.Props.C172_term_partial",
    "Verif.Props.C172_header_partial",
    "Verif.Props.C172_noverbose",
    "Verif.Props.C172_refuted_leak",
    "Verif.Props.C172_refuted_brace"
   ],
   "note": "proved for texts without marks of comments and without a brace at the end of a line; refuted otherwise: a comment can close itself, and a line that ends with a brace makes the filter fail"
  },
  {
   "property": "C173",
   "status": "partial",
   "theorems": [
    "Verif.Props.C173_only",
    "Verif.Props.C173_all",
    "Verif.Props.C173_once",
    "Verif.Props.C173_ignored_partial",
    "Verif.Props.C173_refuted_deep",
    "Verif.Props.C173_refuted_base"
   ],
   "note": "sound, complete and without repetition; ignored directories are left out only if pol is directly in them or one level below: refuted for deeper ones"
  },
  {
   "property": "C174",
   "status": "partial",
   "theorems": [
    "Verif.Props.C174_effect_partial",
    "Verif.Props.C174_filter_partial",
    "Verif.Props.C174_reflexive_partial",
    "Verif.Props.C174_symmetric",
    "Verif.Props.C174_refuted_fields",
    "Verif.Props.C174_refuted_mixed"
   ],
   "note": "proved for terms that agree in the four match conditions that the comparison leaves out; refuted otherwise, and terms with addresses of both families cannot be compared at all"
  },
  {
   "property": "C175",
   "status": "partial",
   "theorems": [
    "Verif.Props.C175_children",
    "Verif.Props.C175_unfold",
    "Verif.Props.C175_resolves",
    "Verif.Props.C175_refuted"
   ],
   "note": "children are exactly the values that are not addresses, and resolve to the rest of the networks; refuted: values that are no tokens either are among them, and undefined tokens have no children instead of an error"
  },
  {
   "property": "C176",
   "status": "partial",
   "theorems": [
    "Verif.Props.C176_width",
    "Verif.Props.C176_marked",
    "Verif.Props.C176_shown_partial",
    "Verif.Props.C176_refuted_lost",
    "Verif.Props.C176_refuted_cut",
    "Verif.Props.C176_again_partial",
    "Verif.Props.C176_refuted_again"
   ],
   "note": "Width and marks hold for all texts. All is shown if no word has one character, and rendering again shows the same if no word is longer than a line. Refuted: the last word of one character is lost, extended Cisco terms cut lines at 100 characters, and a word longer than a line by one character loses it when the term is rendered again."
  },
  {
   "property": "C177",
   "status": "partial",
   "theorems": [
    "Verif.Props.C177_lists_partial",
    "Verif.Props.C177_others",
    "Verif.Props.C177_groups_partial",
    "Verif.Props.C177_refuted_keep",
    "Verif.Props.C177_refuted_same",
    "Verif.Props.C177_refuted_xr",
    "Verif.Props.C177_refuted_group"
   ],
   "note": "For all policies and devices. Refuted for the option configure_replace_compatible, for two filters of one name, for numbered standard lists on IOS XR, and for object groups that the device already has, which keep their old networks."
  },
  {
   "property": "C178",
   "status": "partial",
   "theorems": [
    "Verif.Props.C178_new_partial",
    "Verif.Props.C178_again_partial",
    "Verif.Props.C178_refuted_present",
    "Verif.Props.C178_refuted_stale",
    "Verif.Props.C178_refuted_grown",
    "Verif.Props.C178_refuted_option"
   ],
   "note": "Proved: on a host without the sets every command is accepted, every set gets exactly its networks and the others stay; with exists the same commands are a no-op afterwards. Refuted: without exists on a host with the set; with exists withdrawn networks stay; a set that grows past its limit is refused in spite of exists; exists counts only in the last filter."
  },
  {
   "property": "C179",
   "status": "partial",
   "theorems": [
    "Verif.Props.C179_read_partial",
    "Verif.Props.C179_refuted_comment",
    "Verif.Props.C179_refuted_header"
   ],
   "note": "Proved for words without white space, braces, semicolons, quotes and the begin of a comment, and for all comments without the end of one: reading the text gives exactly the configuration of the output. Refuted: a comment with the end of a comment adds a rule that allows all, or makes the text unreadable."
  },
  {
   "property": "C18",
   "status": "proved",
   "theorems": [
    "Verif.Props.C18_cleanup_preserves",
    "Verif.Props.C18_cleanup_total",
    "Verif.Props.C18_not_total_mixed"
   ],
   "note": "whenever AddressCleanup returns; returns unless a source/destination list mixes families in optimising mode"
  },
  {
   "property": "C180",
   "status": "partial",
   "theorems": [
    "Verif.Props.C180_router_partial",
    "Verif.Props.C180_refuted_same"
   ],
   "note": "C177 and C60 joined; false for a filter with a later one of its name; missing: configure_replace_compatible, standard lists, lists with groups, terms outside Fits"
  },
  {
   "property": "C181",
   "status": "partial",
   "theorems": [
    "Verif.Props.C181_host_partial"
   ],
   "note": "C178 and C48 joined; missing: hosts with sets of these names, shared names, networks of prefix length 0, terms outside IFits, next"
  },
  {
   "property": "C182",
   "status": "proved",
   "theorems": [
    "Verif.Props.C182_report",
    "Verif.Props.C182_sentences"
   ],
   "note": "reading the texts gives back the matches"
  },
  {
   "property": "C183",
   "status": "partial",
   "theorems": [
    "Verif.Props.C183_order_partial",
    "Verif.Props.C183_refuted"
   ],
   "note": "Proved for directories in which every file starts with a definition of its own and every line has the usual form. Refuted for files that start with a continuation line: their values go to the last definition of the file read before."
  },
  {
   "property": "C184",
   "status": "partial",
   "theorems": [
    "Verif.Props.C184_read_partial",
    "Verif.Props.C184_policy_partial",
    "Verif.Props.C184_refuted"
   ],
   "note": "C184_policy_partial starts from the terms of the policy: words without white space, braces, quotes, semicolons and marks of comments, and comments that do not end themselves (C184_refuted shows one that does). Terms with verbatim lines are not covered."
  },
  {
   "property": "C185",
   "status": "partial",
   "theorems": [
    "Verif.Props.C185_read_partial",
    "Verif.Props.C185_refuted"
   ],
   "note": "Every address book, filter, policy and application is read back from the text, for plain words, one action per policy and not exactly eight ICMP terms; refuted for comments with the end of a comment in them."
  },
  {
   "property": "C19",
   "status": "proved",
   "theorems": [
    "Verif.Props.C19_ports_exact",
    "Verif.Props.C19_rejects"
   ],
   "note": "Ports after _TranslateTerms (including CollapsePortList); a field that names services but has no port for the protocols raises TermPortProtocolError. Hypotheses: service values are references or non-empty port ranges (continuation lines are not checked by the loader)."
  },
  {
   "property": "C20",
   "status": "partial",
   "theorems": [
    "Verif.Props.C20_sanity_partial",
    "Verif.Props.C20_policy_error_partial",
    "Verif.Props.C20_refuted_keyError",
    "Verif.Props.C20_refuted_ether",
    "Verif.Props.C20_translated_partial"
   ],
   "note": "exact characterisation of accepted terms; refuted clauses: KeyError for icmp-code with a type without code table, ether-type with icmp-type or address exclude accepted"
  },
  {
   "property": "C21",
   "status": "proved",
   "theorems": [
    "Verif.Props.C21_address_of_version"
   ],
   "note": ""
  },
  {
   "property": "C22",
   "status": "partial",
   "theorems": [
    "Verif.Props.C22_resolves_partial",
    "Verif.Props.C22_undefined_partial",
    "Verif.Props.C22_result_exact",
    "Verif.Props.C22_loaded",
    "Verif.Props.C22_depth",
    "Verif.Props.C22_cycle_diverges",
    "Verif.Props.C22_refuted"
   ],
   "note": "Exact result and UndefinedAddressError proved for definitions without cycles; termination on cyclic definitions is false: GetNet recurses beyond every depth."
  },
  {
   "property": "C23",
   "status": "partial",
   "theorems": [
    "Verif.Props.C23_resolves_partial",
    "Verif.Props.C23_undefined_partial",
    "Verif.Props.C23_byProto_partial",
    "Verif.Props.C23_result_exact",
    "Verif.Props.C23_depth",
    "Verif.Props.C23_cycle_diverges",
    "Verif.Props.C23_refuted"
   ],
   "note": "Exact for definitions without cycles (tokens naming themselves allowed); longer cycles do not terminate."
  },
  {
   "property": "C24",
   "status": "partial",
   "theorems": [
    "Verif.Props.C24_kept",
    "Verif.Props.C24_duplicate",
    "Verif.Props.C24_history",
    "Verif.Props.C24_directory_partial",
    "Verif.Props.C24_refuted"
   ],
   "note": "Round trip of arbitrary definition files; false for a network file whose first line is a continuation, which is added to the last service."
  },
  {
   "property": "C25",
   "status": "partial",
   "theorems": [
    "Verif.Props.C25_networks_partial",
    "Verif.Props.C25_services_partial",
    "Verif.Props.C25_resolves_partial",
    "Verif.Props.C25_refuted"
   ],
   "note": "Loading checks references without comment that start with a letter and have no colon; a reference with a comment is not checked."
  },
  {
   "property": "C26",
   "status": "partial",
   "theorems": [
    "Verif.Props.C26_ip_partial",
    "Verif.Props.C26_port_partial",
    "Verif.Props.C26_parents_partial",
    "Verif.Props.C26_ip_refuted",
    "Verif.Props.C26_port_refuted",
    "Verif.Props.C26_parents_refuted"
   ],
   "note": "Reverse lookups agree with forward resolution on loop-free definitions of the usual form; false for addresses starting with a letter, protocol names in another case, and nested references with comments."
  },
  {
   "property": "C27",
   "status": "proved",
   "theorems": [
    "Verif.Props.C27_port_text",
    "Verif.Props.C27_bad_range",
    "Verif.Props.C27_bad_value",
    "Verif.Props.C27_text_unique",
    "Verif.Props.C27_port_int",
    "Verif.Props.C27_contains",
    "Verif.Props.C27_contains_not_range",
    "Verif.Props.C27_compare"
   ],
   "note": "Port on texts and integers, PPP containment and comparison."
  },
  {
   "property": "C28",
   "status": "proved",
   "theorems": [
    "Verif.Props.C28_reads_below",
    "Verif.Props.C28_subdirectory",
    "Verif.Props.C28_escape",
    "Verif.Props.C28_plain_names",
    "Verif.Props.C28_include_line",
    "Verif.Props.C28_join"
   ],
   "note": "Symbolic links are not resolved (as in the code). The working directory is an absolute path. Reading is a parameter."
  },
  {
   "property": "C29",
   "status": "proved",
   "theorems": [
    "Verif.Props.C29_expansion",
    "Verif.Props.C29_failure",
    "Verif.Props.C29_chain",
    "Verif.Props.C29_depth_only",
    "Verif.Props.C29_depth",
    "Verif.Props.C29_limit",
    "Verif.Props.C29_lines"
   ],
   "note": "C29_failure gives the exact error in every case; C29_depth states the depth clause when no other include fails first."
  },
  {
   "property": "C30",
   "status": "partial",
   "theorems": [
    "Verif.Props.C30_report",
    "Verif.Props.C30_possible",
    "Verif.Props.C30_unique",
    "Verif.Props.C30_fails",
    "Verif.Props.C30_arguments",
    "Verif.Props.C30_no_miss_partial",
    "Verif.Props.C30_first_match_partial",
    "Verif.Props.C30_refuted"
   ],
   "note": "The report order and the stopping rule are proved in full for what aclcheck looks at. That this is what could match is false: a term matching part of a queried network is not reported, and excluded addresses are ignored (C30_refuted). For single-address queries no matching term is missed, and if the certain terms use only inspected conditions the exact match is the deciding term."
  },
  {
   "property": "C31",
   "status": "partial",
   "theorems": [
    "Verif.Props.C31_addresses_partial",
    "Verif.Props.C31_refuted"
   ],
   "note": "False: excluded addresses are ignored. Proved for the included addresses."
  },
  {
   "property": "C32",
   "status": "proved",
   "theorems": [
    "Verif.Props.C32_unchanged",
    "Verif.Props.C32_established",
    "Verif.Props.C32_family"
   ],
   "note": "unchanged without established; port set with it; errors characterised. The input term is a value in the model, so it cannot be modified."
  },
  {
   "property": "C33",
   "status": "proved",
   "theorems": [
    "Verif.Props.C33_bounded",
    "Verif.Props.C33_fits",
    "Verif.Props.C33_error",
    "Verif.Props.C33_truncate",
    "Verif.Props.C33_abbreviate"
   ],
   "note": "abbreviation words are literal (as in the shipped tables), the substitution is specified as leftmost non-overlapping replacement"
  },
  {
   "property": "C34",
   "status": "proved",
   "theorems": [
    "Verif.Props.C34_types",
    "Verif.Props.C34_length",
    "Verif.Props.C34_injective",
    "Verif.Props.C34_errors"
   ],
   "note": "exact characterisation of success for both families"
  },
  {
   "property": "C35",
   "status": "partial",
   "theorems": [
    "Verif.Props.C35_refused_partial",
    "Verif.Props.C35_total",
    "Verif.Props.C35_refuted"
   ],
   "note": "false as stated: keywords in WARN_IF_UNSUPPORTED (restrict_address_family, source_tag, ...) are only logged; exact characterisation otherwise"
  },
  {
   "property": "C36",
   "status": "partial",
   "theorems": [
    "Verif.Props.C36_text",
    "Verif.Props.C36_entry",
    "Verif.Props.C36_second_partial",
    "Verif.Props.C36_refuted"
   ],
   "note": "exact for text outputs; false for binary (SONiC) outputs, which are rewritten on every run; second run writes nothing for text outputs without CR and with different paths"
  },
  {
   "property": "C37",
   "status": "proved",
   "theorems": [
    "Verif.Props.C37_sequential",
    "Verif.Props.C37_renders",
    "Verif.Props.C37_parallel",
    "Verif.Props.C37_outcome",
    "Verif.Props.C37_failed_policy"
   ],
   "note": "all schedules of the pool; C37_failed_policy shows that a parallel run still writes what a failing policy rendered before failing"
  },
  {
   "property": "C38",
   "status": "proved",
   "theorems": [
    "Verif.Props.C38_same",
    "Verif.Props.C38_progress",
    "Verif.Props.C38_terminates"
   ],
   "note": "all schedules; every output must be writable"
  },
  {
   "property": "C39",
   "status": "partial",
   "theorems": [
    "Verif.Props.C39_exact_partial",
    "Verif.Props.C39_lines_valid",
    "Verif.Props.C39_renders",
    "Verif.Props.C39_refuted_mixed",
    "Verif.Props.C39_refuted_exclude",
    "Verif.Props.C39_refuted_address",
    "Verif.Props.C39_refuted_fragment",
    "Verif.Props.C39_refuted_established",
    "Verif.Props.C39_refuted_ipv6",
    "Verif.Props.C39_refuted_ttl",
    "Verif.Props.C39_refuted_number"
   ],
   "note": "Exact for every accepted term meeting the documented side conditions (Fits), on IOS, IOS XR, NX-OS and EOS, both families, with and without discontinuous masks; all lines are parsable by the device grammar and rendering does not fail. False in general: mixed icmp/other protocols, exclusion without inclusion, the either-direction address, fragment and established options the platform drops, protocol 41 on name-printing platforms, zero ttl, numeric protocols."
  },
  {
   "property": "C40",
   "status": "partial",
   "theorems": [
    "Verif.Props.C40_not_widened_partial",
    "Verif.Props.C40_refuted_standard",
    "Verif.Props.C40_refuted_objectgroup"
   ],
   "note": "Proved for extended and IPv6 lists. False for standard lists (IPv6-only addresses become any) and object-group lists (exclusions ignored)."
  },
  {
   "property": "C41",
   "status": "partial",
   "theorems": [
    "Verif.Props.C41_groups_partial",
    "Verif.Props.C41_references",
    "Verif.Props.C41_ports",
    "Verif.Props.C41_refuted_shared",
    "Verif.Props.C41_refuted_undefined"
   ],
   "note": "Names are unique, groups hold one family, references are to the name of the first address, port groups are exact. Network groups are exact if every address list comes from one named network; false otherwise (widened group, undefined group)."
  },
  {
   "property": "C42",
   "status": "proved",
   "theorems": [
    "Verif.Props.C42_ports"
   ],
   "note": ""
  },
  {
   "property": "C43",
   "status": "proved",
   "theorems": [
    "Verif.Props.C43_minimize",
    "Verif.Props.C43_minimal"
   ],
   "note": "Minimisation preserves the longest-prefix match of the include/except lists at every address, and keeps no line that could be dropped for being outside every include."
  },
  {
   "property": "C44",
   "status": "partial",
   "theorems": [
    "Verif.Props.C44_addresses_partial",
    "Verif.Props.C44_most_specific",
    "Verif.Props.C44_refuted_exclude_only",
    "Verif.Props.C44_refuted_nested"
   ],
   "note": "False as stated: excludes without includes are dropped and an include inside an exclude still matches (refuted). Proved: the rendered block matches exactly the longest-prefix reading of the two lists, and include minus exclude when no include lies strictly inside an exclude and the include list is not empty."
  },
  {
   "property": "C45",
   "status": "partial",
   "theorems": [
    "Verif.Props.C45_balanced_partial",
    "Verif.Props.C45_indentation",
    "Verif.Props.C45_accepts",
    "Verif.Props.C45_refuted_comments",
    "Verif.Props.C45_refuted_verbatim"
   ],
   "note": "Indentation and acceptance of properly nested lines are proved for all sequences. Balanced braces hold when fewer than four comments are nested and verbatim lines are left out; both restrictions are needed (refuted)."
  },
  {
   "property": "C46",
   "status": "partial",
   "theorems": [
    "Verif.Props.C46_partial",
    "Verif.Props.C46_refuted",
    "Verif.Props.C69_refuted_exclude"
   ],
   "note": "Whichever encoding (subtracted, bail-out, inverted) is chosen, the pairs are exactly include minus exclude for all lists of which something is left. If everything is excluded the exclusion is ignored (refuted)."
  },
  {
   "property": "C47",
   "status": "proved",
   "theorems": [
    "Verif.Props.C47"
   ],
   "note": "All port lists."
  },
  {
   "property": "C48",
   "status": "partial",
   "theorems": [
    "Verif.Props.C48_partial",
    "Verif.Props.C48_names",
    "Verif.Props.C48_addresses",
    "Verif.Props.C48_refuted_names",
    "Verif.Props.C48_refuted_next"
   ],
   "note": "Set contents are exactly include minus exclude for all lists; names have at most 31 characters and differ within a filter; with the sets loaded the filter decides like the policy. Sets of different filters can share a name and next skips the rest of the filter (both refuted)."
  },
  {
   "property": "C49",
   "status": "partial",
   "theorems": [
    "Verif.Props.C49_partial",
    "Verif.Props.C49_refuted_source",
    "Verif.Props.C49_refuted_exclude",
    "Verif.Props.C49_refuted_excludes",
    "Verif.Props.C49_refuted_any6",
    "Verif.Props.C49_refuted_not6",
    "Verif.Props.C49_refuted_icmpv6",
    "Verif.Props.C49_refuted_codes",
    "Verif.Props.C49_refuted_established",
    "Verif.Props.C49_refuted_rst",
    "Verif.Props.C49_refuted_none",
    "Verif.Props.C49_refuted_flags6",
    "Verif.Props.C49_refuted_options",
    "Verif.Props.C49_refuted_family",
    "Verif.Props.C49_refuted_tag",
    "Verif.Props.C49_refuted_protocol"
   ],
   "note": "Exact for every accepted term with only destination addresses or one exclusion, at most one ICMP code, and flags for IPv4 tcp; the expression is read by a separate reader with pcap's precedence. The statement as a whole is false: source addresses are compared with the destination, exclusions are negated twice, icmpv6 types, `established`, options of other protocols, families and tags are dropped, several ICMP codes, `none`, `tcp-established`, IPv6 flags and `::/0` are misread, and some protocols raise KeyError."
  },
  {
   "property": "C50",
   "status": "partial",
   "theorems": [
    "Verif.Props.C50_partial",
    "Verif.Props.C50_filters_partial",
    "Verif.Props.C50_refuted_accepts",
    "Verif.Props.C50_refuted_deny",
    "Verif.Props.C50_refuted_denies",
    "Verif.Props.C50_refuted_order",
    "Verif.Props.C50_refuted_all",
    "Verif.Props.C50_refuted_invert",
    "Verif.Props.C50_refuted_family",
    "Verif.Props.C50_refuted_direction",
    "Verif.Props.C50_refuted_syntax"
   ],
   "note": "Exact, also inverted, for one filter (and for the union of several, each with conditions) with one wanted term, at most one term with a condition before it and terms without condition after it (any number of expired or other-platform terms between). False in general: terms of the same action are and-ed, the order of terms is ignored, terms without condition vanish, the direction leaks into later filters and empty filters give a syntax error."
  },
  {
   "property": "C51",
   "status": "proved",
   "theorems": [
    "Verif.Props.C51_comments_kept"
   ],
   "note": ""
  },
  {
   "property": "C52",
   "status": "partial",
   "theorems": [
    "Verif.Props.C52_term_partial",
    "Verif.Props.C52_policy_partial",
    "Verif.Props.C52_refuted"
   ],
   "note": "End to end from token names to matched packets; false for an included token without addresses, whose restriction is dropped."
  },
  {
   "property": "C53",
   "status": "partial",
   "theorems": [
    "Verif.Props.C53_action_partial",
    "Verif.Props.C53_refuted"
   ],
   "note": "False: the test is a substring test, so 'reject' also selects 'reject-with-tcp-rst'. Proved for the substring reading."
  },
  {
   "property": "C54",
   "status": "partial",
   "theorems": [
    "Verif.Props.C54_list_partial",
    "Verif.Props.C54_text",
    "Verif.Props.C54_refuted"
   ],
   "note": "holds for lists; a single text keeps inner quotes and line breaks"
  },
  {
   "property": "C55",
   "status": "proved",
   "theorems": [
    "Verif.Props.C55_protocols",
    "Verif.Props.C55_idempotent"
   ],
   "note": ""
  },
  {
   "property": "C56",
   "status": "partial",
   "theorems": [
    "Verif.Props.C56_rerun_partial",
    "Verif.Props.C56_refuted"
   ],
   "note": "holds up to lines with revision tags"
  },
  {
   "property": "C57",
   "status": "partial",
   "theorems": [
    "Verif.Props.C57_platforms_partial",
    "Verif.Props.C57_name",
    "Verif.Props.C57_directory",
    "Verif.Props.C57_policies_partial",
    "Verif.Props.C57_refuted"
   ],
   "note": "holds for one policy, for one platform, and for stems without dots"
  },
  {
   "property": "C58",
   "status": "partial",
   "theorems": [
    "Verif.Props.C58_outputs_partial",
    "Verif.Props.C58_refuted",
    "Verif.Props.C58_pcap"
   ],
   "note": "holds for the platforms aclgen renders and policies that are not shaded; versa and shaded policies are skipped"
  },
  {
   "property": "C59",
   "status": "partial",
   "theorems": [
    "Verif.Props.C59_value_partial",
    "Verif.Props.C59_refuted"
   ],
   "note": "configuration files override the command line"
  },
  {
   "property": "C60",
   "status": "partial",
   "theorems": [
    "Verif.Props.C60_filter_partial"
   ],
   "note": "For extended and IPv6 lists whose terms meet the conditions of C39 (which is false otherwise)."
  },
  {
   "property": "C61",
   "status": "partial",
   "theorems": [
    "Verif.Props.C61_meaning_partial",
    "Verif.Props.C61_refuted_twice",
    "Verif.Props.C61_refuted_platform"
   ],
   "note": "Proved if group names are defined once per family, for IOS and IOS XR. False if two filters define the same group (both definitions vanish) and for NX-OS and EOS (references are not replaced)."
  },
  {
   "property": "C62",
   "status": "partial",
   "theorems": [
    "Verif.Props.C62_platform_partial",
    "Verif.Props.C62_refuted_objectgroup"
   ],
   "note": "Object-group lists of NX-OS and EOS use the restrictions of IOS."
  },
  {
   "property": "C63",
   "status": "partial",
   "theorems": [
    "Verif.Props.C63_standard_partial",
    "Verif.Props.C40_refuted_standard"
   ],
   "note": "Proved for every term with no addresses or at least one IPv4 address; false for terms with IPv6 addresses only, which match everything."
  },
  {
   "property": "C64",
   "status": "partial",
   "theorems": [
    "Verif.Props.C64_list_partial",
    "Verif.Props.C64_entries_partial",
    "Verif.Props.C64_refuted_options",
    "Verif.Props.C64_refuted_platform",
    "Verif.Props.C64_refuted_inet6",
    "Verif.Props.C40_refuted_objectgroup",
    "Verif.Props.C41_refuted_shared",
    "Verif.Props.C41_refuted_undefined"
   ],
   "note": "Exact for whole object-group lists (first match) and single terms whose address lists can be named, without exclusions, options, icmp types, dscp; the rest is refuted: object-group entries drop these, unnamed or shared names denote other addresses, terms for arista/cisconx are dropped on these platforms, and IPv6 lists drop terms restricted to IPv6."
  },
  {
   "property": "C65",
   "status": "partial",
   "theorems": [
    "Verif.Props.C65_term_partial",
    "Verif.Props.C65_refuted_fragment",
    "Verif.Props.C65_refuted_length",
    "Verif.Props.C65_refuted_icmp_type",
    "Verif.Props.C65_refuted_established",
    "Verif.Props.C65_refuted_ttl",
    "Verif.Props.C65_refuted_hop_limit",
    "Verif.Props.C65_refuted_prefix",
    "Verif.Props.C65_refuted_counter"
   ],
   "note": "Exact for the terms of JFits (every condition of it beyond the tool's own checks is needed). Refuted outside: terms with only an option, packet length or icmp type match everything, established with TCP and UDP is not tested, ttl is dropped for IPv6 and hop-limit for IPv4, prefix lists only excluded match nothing, one-letter counters raise TypeError."
  },
  {
   "property": "C66",
   "status": "partial",
   "theorems": [
    "Verif.Props.C66_filter_partial"
   ],
   "note": "Filters of one family whose live terms are in JFits; the refutations of C65 apply to the others."
  },
  {
   "property": "C67",
   "status": "partial",
   "theorems": [
    "Verif.Props.C67_term_partial",
    "Verif.Props.C67_filter_partial",
    "Verif.Props.C67_refuted_icmp6",
    "Verif.Props.C67_refuted_both",
    "Verif.Props.C67_refuted_hopopt"
   ],
   "note": "Mixed filters whose live terms are in JFits for the families they are for and have no icmp protocol. Refuted with icmp protocols (an icmpv6 term accepts every IPv6 packet, a term with both is missing for IPv6) and hopopt (error)."
  },
  {
   "property": "C68",
   "status": "partial",
   "theorems": [
    "Verif.Props.C68_again_partial",
    "Verif.Props.C68_refuted_icmp6",
    "Verif.Props.C68_refuted_sample",
    "Verif.Props.C68_refuted_types"
   ],
   "note": "Holds unless a term is left out for its icmp protocol, uses sample, or has icmp types with icmpv6 (each refuted)."
  },
  {
   "property": "C69",
   "status": "partial",
   "theorems": [
    "Verif.Props.C69_term_partial",
    "Verif.Props.C69_refuted_exclude",
    "Verif.Props.C69_refuted_code",
    "Verif.Props.C69_refuted_none",
    "Verif.Props.C69_refuted_established",
    "Verif.Props.C69_refuted_hopopt",
    "Verif.Props.C69_refuted_icmp",
    "Verif.Props.C69_refuted_fragment",
    "Verif.Props.C69_refuted_leak",
    "Verif.Props.C69_refuted_family",
    "Verif.Props.C69_refuted_prefix",
    "Verif.Props.C69_refuted_tag",
    "Verif.Props.C69_refuted_limit"
   ],
   "note": "Exact for all terms meeting IFits; each condition that excludes accepted terms has a refutation."
  },
  {
   "property": "C70",
   "status": "partial",
   "theorems": [
    "Verif.Props.C70_partial",
    "Verif.Props.C70_chains",
    "Verif.Props.C70_refuted_collision",
    "Verif.Props.C70_refuted_name"
   ],
   "note": "Every filter with distinct chain names and faithful terms decides like the policy; chains of one filter never collide. Chain names of different filters can collide (refuted)."
  },
  {
   "property": "C71",
   "status": "partial",
   "theorems": [
    "Verif.Props.C71_partial",
    "Verif.Props.C70_partial",
    "Verif.Props.C71_refuted_nostate",
    "Verif.Props.C71_refuted_default"
   ],
   "note": "Policies follow the filter's own options unless an earlier filter set a default action; tracking unless an earlier filter has nostate (both refuted)."
  },
  {
   "property": "C72",
   "status": "partial",
   "theorems": [
    "Verif.Props.C72_partial",
    "Verif.Props.C72_refuted_family",
    "Verif.Props.C72_refuted_platform",
    "Verif.Props.C72_refuted_restrict",
    "Verif.Props.C72_refuted_tag"
   ],
   "note": "Proved for a filter whose terms are meant for the platform, have an address of the family or none, and no family restriction or tags. False otherwise: a term without addresses of the family matches every source, terms for other platforms are rendered unchecked, and family restrictions and tags have no effect."
  },
  {
   "property": "C73",
   "status": "proved",
   "theorems": [
    "Verif.Props.C73_limits"
   ],
   "note": ""
  },
  {
   "property": "C74",
   "status": "partial",
   "theorems": [
    "Verif.Props.C74_partial",
    "Verif.Props.C74_refuted_filters"
   ],
   "note": "Proved for policies with one filter. False for several: the priorities start again at 1 for each filter."
  },
  {
   "property": "C75",
   "status": "partial",
   "theorems": [
    "Verif.Props.C75_partial",
    "Verif.Props.C75_refuted_icmp",
    "Verif.Props.C75_refuted_zero",
    "Verif.Props.C75_refuted_family",
    "Verif.Props.C75_refuted_excluded",
    "Verif.Props.C75_refuted_overlap",
    "Verif.Props.C75_refuted_fragment",
    "Verif.Props.C75_refuted_options",
    "Verif.Props.C75_refuted_initial",
    "Verif.Props.C75_refuted_established",
    "Verif.Props.C75_refuted_restrict",
    "Verif.Props.C75_refuted_tag",
    "Verif.Props.C75_refuted_side",
    "Verif.Props.C75_refuted_order"
   ],
   "note": "Proved for any number of filters with one named family or mixed, expired and foreign terms, and terms with addresses, exclusions on both sides, ports, protocols and one kind of option. False for icmp types, port 0, terms without addresses of the family, everything excluded, overlapping addresses with exclusions, is-fragment in IPv6, several options, initial beside other protocols, established without protocol, family restrictions, tags, exclusions on one side (TypeError) and headers with two families (depends on the hash seed)."
  },
  {
   "property": "C76",
   "status": "proved",
   "theorems": [
    "Verif.Props.C76_sequence"
   ],
   "note": ""
  },
  {
   "property": "C77",
   "status": "partial",
   "theorems": [
    "Verif.Props.C77_partial",
    "Verif.Props.C77_refuted_exclude",
    "Verif.Props.C77_refuted_zero",
    "Verif.Props.C77_refuted_established",
    "Verif.Props.C77_refuted_restrict",
    "Verif.Props.C77_refuted_tag",
    "Verif.Props.C77_refuted_ports",
    "Verif.Props.C77_refuted_leak",
    "Verif.Props.C77_refuted_family",
    "Verif.Props.C77_refuted_ipip",
    "Verif.Props.C77_refuted_two"
   ],
   "note": "Proved for the last filter that names a family, whatever comes before and after, for any order of families, expired and foreign terms, and terms with addresses of any families, ports of one kind per direction, protocols, icmp types and tcp-established with UDP before TCP. False for terms that exclude the platform (rendered), port 0, tcp-established without protocol or with TCP before another protocol, family restrictions, tags, single ports mixed with ranges, headers without family, ipip (KeyError) and several filters (the first is buried)."
  },
  {
   "property": "C78",
   "status": "proved",
   "theorems": [
    "Verif.Props.C78_numbers"
   ],
   "note": ""
  },
  {
   "property": "C79",
   "status": "partial",
   "theorems": [
    "Verif.Props.C79_policy_partial",
    "Verif.Props.C79_refuted_order",
    "Verif.Props.C79_refuted_tags",
    "Verif.Props.C79_refuted_accounts",
    "Verif.Props.C79_refuted_exclude",
    "Verif.Props.C79_refuted_embedded",
    "Verif.Props.C79_refuted_icmpv6",
    "Verif.Props.C79_refuted_igmp",
    "Verif.Props.C79_refuted_restrict",
    "Verif.Props.C79_refuted_deny",
    "Verif.Props.C79_refuted_families"
   ],
   "note": "Proved for filters whose live terms are ordered by priority and are rendered faithfully, under headers with one family option. False in general: priorities need not follow the order of terms, addresses beside tags or accounts, exclusions of the other direction, IPv6 networks that embed IPv4, icmpv6 and igmp in some filters, restrict-address-family, a deny of everything before other terms, and two family options."
  },
  {
   "property": "C80",
   "status": "proved",
   "theorems": [
    "Verif.Props.C80_limits",
    "Verif.Props.C80_quota"
   ],
   "note": "For every accepted policy. The quota is that of the first header, other headers stating none."
  },
  {
   "property": "C81",
   "status": "partial",
   "theorems": [
    "Verif.Props.C81_names_partial",
    "Verif.Props.C81_refuted_parts",
    "Verif.Props.C81_refuted_filters",
    "Verif.Props.C81_refuted_mixed"
   ],
   "note": "Proved for one filter of one family, for terms of any number of addresses, when no ingress term is named like a numbered part of another. False for such names, for several filters, and for mixed filters."
  },
  {
   "property": "C82",
   "status": "partial",
   "theorems": [
    "Verif.Props.C82_descriptions_partial",
    "Verif.Props.C82_refuted_owner",
    "Verif.Props.C82_refuted_twice"
   ],
   "note": "Proved for one filter of one family whose terms have comments. False for terms without comments, which get the owners of terms before them, and for mixed filters, where the owner is named twice."
  },
  {
   "property": "C83",
   "status": "partial",
   "theorems": [
    "Verif.Props.C83_policy_partial",
    "Verif.Props.C83_refuted_order",
    "Verif.Props.C83_refuted_empty",
    "Verif.Props.C83_refuted_expired",
    "Verif.Props.C83_refuted_tags",
    "Verif.Props.C83_refuted_family",
    "Verif.Props.C83_refuted_ports",
    "Verif.Props.C83_refuted_exclude",
    "Verif.Props.C83_refuted_names",
    "Verif.Props.C83_refuted_filters"
   ],
   "note": "Proved for a filter whose live terms have only what the tool renders and whose denying terms come last, of which something is left, beside filters of the other direction with other names. False without these conditions, each shown by a counterexample."
  },
  {
   "property": "C84",
   "status": "partial",
   "theorems": [
    "Verif.Props.C84_valid_partial",
    "Verif.Props.C84_refuted_name",
    "Verif.Props.C84_refuted_outside",
    "Verif.Props.C84_refuted_equal",
    "Verif.Props.C84_refuted_port",
    "Verif.Props.C84_refuted_number",
    "Verif.Props.C84_refuted_all"
   ],
   "note": "Proved for terms whose names have no dots, whose protocols are named, whose ports are 1 to 65535 in order, and whose excluded addresses are properly inside every included one. False without these conditions."
  },
  {
   "property": "C85",
   "status": "partial",
   "theorems": [
    "Verif.Props.C85_names_partial",
    "Verif.Props.C85_refuted_filters",
    "Verif.Props.C85_refuted_directions"
   ],
   "note": "Proved for one filter. False for several."
  },
  {
   "property": "C86",
   "status": "proved",
   "theorems": [
    "Verif.Props.C86_own"
   ],
   "note": ""
  },
  {
   "property": "C87",
   "status": "partial",
   "theorems": [
    "Verif.Props.C87_chain_partial",
    "Verif.Props.C87_policy_partial",
    "Verif.Props.C87_refuted_ports",
    "Verif.Props.C87_refuted_interface",
    "Verif.Props.C87_refuted_excluded",
    "Verif.Props.C87_refuted_exclusion",
    "Verif.Props.C87_refuted_both",
    "Verif.Props.C87_refuted_half",
    "Verif.Props.C87_refuted_deny",
    "Verif.Props.C87_refuted_ipip",
    "Verif.Props.C87_refuted_family",
    "Verif.Props.C87_refuted_tag",
    "Verif.Props.C87_refuted_names",
    "Verif.Props.C87_refuted_base"
   ],
   "note": "False in general: see the refutations (two protocols with one list of ports, interfaces on the first rule only, addresses all excluded, exclusions without addresses, both ICMP protocols, IP in IP, family restrictions, tags, terms of the same name in two filters, base chains whose names collide). Proved for all other policies the tool accepts, with distinct names; the theorem about hooks is for filters without address-family-override and as-regular-chain."
  },
  {
   "property": "C88",
   "status": "partial",
   "theorems": [
    "Verif.Props.C88_known_partial",
    "Verif.Props.C88_invalid",
    "Verif.Props.C88_refuted_names",
    "Verif.Props.C88_refuted_icmp"
   ],
   "note": "Known connections pass if names are distinct, and a term named like the base chain breaks this. Packets in other states are accepted by no chain if terms have one action and accepting terms have no ICMP types; with ICMP types they are accepted."
  },
  {
   "property": "C89",
   "status": "partial",
   "theorems": [
    "Verif.Props.C89_chains_partial",
    "Verif.Props.C89_jumps",
    "Verif.Props.C89_refuted_names"
   ],
   "note": "Jumps always lead to chains of rules. Names of chains are unique if terms of filters of one family have different names; otherwise they need not be."
  },
  {
   "property": "C90",
   "status": "partial",
   "theorems": [
    "Verif.Props.C90_comments",
    "Verif.Props.C90_refuted_header"
   ],
   "note": "All comments of rules are well formed; the remark with the comment of the header may contain line ends."
  },
  {
   "property": "C91",
   "status": "proved",
   "theorems": [
    "Verif.Props.C91_log"
   ],
   "note": ""
  },
  {
   "property": "C92",
   "status": "partial",
   "theorems": [
    "Verif.Props.C92_policy_partial",
    "Verif.Props.C92_refuted_exclude",
    "Verif.Props.C92_refuted_tokens",
    "Verif.Props.C92_refuted_deny",
    "Verif.Props.C92_refuted_direction",
    "Verif.Props.C92_refuted_established",
    "Verif.Props.C92_refuted_family",
    "Verif.Props.C92_refuted_ipip",
    "Verif.Props.C92_refuted_verbatim"
   ],
   "note": "The rule set does what the first matching term says for every packet that opens a connection (and for all packets if the first filter has nostate), for terms without exclusions and the other cases listed in PfFits, if every token means the same addresses everywhere. Refuted otherwise: exclusions let everything pass, tokens collect the addresses of other terms, denying terms let TCP packets without syn pass, an interface changes the direction, established without protocols lets ICMP pass, restrict_address_family is ignored, ipip and verbatim terms make the generator fail."
  },
  {
   "property": "C93",
   "status": "partial",
   "theorems": [
    "Verif.Props.C93_tables",
    "Verif.Props.C93_defined_partial",
    "Verif.Props.C93_refuted"
   ],
   "note": "Table names are unique, at most 31 characters, and tables have exactly the addresses of one token; tables that rules admit are defined. Refuted for excluded tables, which are not defined."
  },
  {
   "property": "C94",
   "status": "partial",
   "theorems": [
    "Verif.Props.C94_state_partial",
    "Verif.Props.C94_refuted"
   ],
   "note": "Proved for filters with nostate and for policies without it; refuted for filters after one with nostate."
  },
  {
   "property": "C95",
   "status": "partial",
   "theorems": [
    "Verif.Props.C95_log_partial",
    "Verif.Props.C95_names",
    "Verif.Props.C95_refuted"
   ],
   "note": "Actions and logging are those of the term, and no two terms of a filter share a name; refuted for logging disable, which logs."
  },
  {
   "property": "C96",
   "status": "partial",
   "theorems": [
    "Verif.Props.C96_policy_partial",
    "Verif.Props.C96_refuted_nothing",
    "Verif.Props.C96_refuted_naked",
    "Verif.Props.C96_refuted_shared",
    "Verif.Props.C96_refuted_tokens",
    "Verif.Props.C96_refuted_families",
    "Verif.Props.C96_refuted_inet",
    "Verif.Props.C96_refuted_options",
    "Verif.Props.C96_refuted_restricted",
    "Verif.Props.C96_refuted_names"
   ],
   "note": "Proved for all lists of filters for the same families, if a token stands for the same addresses wherever it is used and every live term has one action, no options, protocols the device knows, ports only with tcp, udp and sctp, addresses that are left after exclusion, and is small enough not to be split. Each refutation is a policy that the tool accepts."
  },
  {
   "property": "C97",
   "status": "partial",
   "theorems": [
    "Verif.Props.C97_books",
    "Verif.Props.C97_referred",
    "Verif.Props.C97_refuted_names"
   ],
   "note": "Proved except for one point, which is false: an address of one token and the set of another may have the same name."
  },
  {
   "property": "C98",
   "status": "partial",
   "theorems": [
    "Verif.Props.C98_names",
    "Verif.Props.C98_referred",
    "Verif.Props.C98_admits_partial",
    "Verif.Props.C98_policies"
   ],
   "note": "All but the meaning of applications is proved without conditions; that is proved for terms with protocols the device knows and ports only with tcp, udp and sctp."
  },
  {
   "property": "C99",
   "status": "partial",
   "theorems": [
    "Verif.Props.C99_balanced_partial",
    "Verif.Props.C99_refuted_eight",
    "Verif.Props.C99_refuted_actions",
    "Verif.Props.C99_refuted_verbatim"
   ],
   "note": "Proved if live terms have one action and not exactly eight ICMP types; both conditions are needed."
  }
 ]
}
